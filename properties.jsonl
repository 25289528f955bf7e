{"id": "C01", "title": "Shape construction is canonical", "statement": "Shape::new(dims, batch) panics exactly when more than 8 dims are given, some dim is 0, batch is 0, or (overflow checks on) the product of the dims reaches 2^32. Otherwise shape[i] is dims[i] for the given positions and 1 everywhere else, batch() is the given batch, volume() is the product of dims (modulo 2^32 without overflow checks), depth() is the smallest d such that every position >= d is 1, and dims() is the first depth() entries.", "quantifier": "every list of u32 dims, every batch, both build profiles", "why_tests_cant": "the domain of dim lists and values is unbounded in practice (u32^8); tests sample a handful", "anchors": ["prima_undine/src/shape.rs: Shape::new, depth, dims, volume, batch, Index"]}
{"id": "C02", "title": "Shape equality is extensional", "statement": "For any two shapes obtainable from the public API (Shape::new followed by any sequence of resize_dim/resize_batch/update_dim/update_batch), a == b holds iff a.batch()==b.batch() and a[i]==b[i] for every i. In particular trailing 1-dims given at construction or produced by resizing never make equal shapes compare different.", "quantifier": "every pair of construction histories", "why_tests_cant": "derived PartialEq compares padding, depth and cached volume; equality must survive every update history", "anchors": ["prima_undine/src/shape.rs: derive(PartialEq), update_dim, update_batch"]}
{"id": "C03", "title": "resize_dim/update_dim replaces exactly one dimension", "statement": "For every reachable shape s, s.resize_dim(d, m) panics iff d >= 8, m == 0 or (overflow checks on) the new volume overflows u32; otherwise the result has [d] == m, all other dims and the batch unchanged, and depth/volume consistent with its dims (the cached volume is always the product of the dims, so volume/old*m never loses a remainder).", "quantifier": "every reachable shape, dim and size", "why_tests_cant": "cached-volume arithmetic and the depth trimming loop depend on all previous updates", "anchors": ["prima_undine/src/shape.rs: update_dim, resize_dim"]}
{"id": "C04", "title": "Shape queries decide what they claim", "statement": "a.has_same_dims(b) iff a[i]==b[i] for all i. a.has_same_loo_dims(b, dim) iff a[i]==b[i] for all i != dim. The other queries too: depth() is the least d such that a[i]==1 for all i>=d, dims() lists those entries, volume() is their product, size() panics on overflow, is_scalar/is_column_vector/is_matrix iff all entries from 0/1/2 on are 1, has_batch, has_compatible_batch.", "quantifier": "every pair of reachable shapes and every dim < 2^32-1", "why_tests_cant": "index-walking loop with depth trimming over all shape pairs", "anchors": ["prima_undine/src/shape.rs: has_same_dims, has_same_loo_dims"]}
{"id": "C05", "title": "Stride decomposition", "statement": "For every reachable shape and every dim: volume() is divisible by lower_volume(dim)*shape[dim], lower_volume(dim) is the product of the dims below dim, and the map (coordinates, batch) -> flat offset used by all kernels (column major, batch outermost) is a bijection between valid coordinates and 0..size().", "quantifier": "every reachable shape, every dim, every coordinate", "why_tests_cant": "all kernels rely on it for unbounded shapes", "anchors": ["prima_undine/src/shape.rs: lower_volume, volume, size"]}
{"id": "C06", "title": "Shape inference accepts and returns exactly the documented shapes", "statement": "elementwise/scalar_op/broadcast/matmul/transpose/slice/pick/concat/batch_pick/batch_slice/batch_concat each panic exactly outside their stated precondition (same dims and compatible batch, scalar rhs, size-1 axis, matching inner dims of matrices, lower<upper<=dim, ids in range with compatible batch, equal leave-one-out dims, ...) and otherwise return the shape whose every dim and batch is given by the textbook rule (max of batches, concatenated sum, ...).", "quantifier": "every tuple/list of reachable shapes and every u32 argument", "why_tests_cant": "arguments range over all shapes and lists of arbitrary length", "anchors": ["prima_undine/src/shape_ops.rs"]}
{"id": "C07", "title": "Shape serialisation round-trip", "statement": "Deserialising the serialised form of any reachable shape gives an equal shape. Deserialising a record panics (instead of returning an error) exactly when Shape::new would.", "quantifier": "every reachable shape; every record (dims, batch)", "why_tests_cant": "must hold for every shape history, incl. trimmed trailing ones", "anchors": ["prima_undine/src/shape.rs: Serialize, Deserialize"]}
{"id": "C08", "title": "Release-profile wrap-around", "statement": "With overflow checks off, all shape functions agree with the checked ones whenever the exact products fit in u32; when they do not, volume()/size() silently wrap and an allocated tensor's buffer can be smaller than batch*volume (so the memory-safety property C18 does not extend to release builds on such shapes).", "quantifier": "every shape and both profiles", "why_tests_cant": "u32 wrap-around boundaries", "anchors": ["prima_undine/src/shape.rs: Shape::new, size, update_dim"]}
{"id": "C09", "title": "Memory pool size classes", "statement": "new_handle(size) panics iff size==0 or size>2^31; otherwise the handle it returns has capacity 2^k where 2^k is the smallest power of two >= max(size,64).", "quantifier": "all 2^32 sizes", "why_tests_cant": "bit-trick arithmetic over the whole u32 domain", "anchors": ["prima_undine/src/memory_pool.rs: calculate_shifts, MemoryPool::new_handle"]}
{"id": "C10", "title": "A handle is never handed out twice", "statement": "In every history of new_handle/drop_handle calls (drops of live handles, in any order), the handles live at any moment are pairwise distinct, each live handle has the capacity requested for it, and a handle is handed out again only after it was dropped.", "quantifier": "every finite history of pool operations", "why_tests_cant": "histories are unbounded", "anchors": ["prima_undine/src/memory_pool.rs: new_handle, drop_handle"]}
{"id": "C11", "title": "Pool safety under every interleaving", "statement": "With any number of threads calling new_handle/drop_handle concurrently, interleaved at the granularity of the individual lock sections, no handle is ever owned by two parties (two threads, or a thread and the pool), every handle's registered size class is its true capacity, drop of an owned handle never panics, and no thread ever waits for a lock while holding another (no deadlock).", "quantifier": "every number of threads, every schedule", "why_tests_cant": "schedules cannot be enumerated by tests", "anchors": ["prima_undine/src/memory_pool.rs: pool/mem_shift mutexes"]}
{"id": "C12", "title": "Pool reuse bound", "statement": "The backend allocator is asked for a new block of a size class only when no idle block of this class exists; hence the number of blocks of a class ever allocated equals the maximum number of simultaneously live handles of the class over the history.", "quantifier": "every finite sequential history", "why_tests_cant": "needs the whole history", "anchors": ["prima_undine/src/memory_pool.rs"]}
{"id": "C13", "title": "Pool teardown frees every idle block exactly once", "statement": "Dropping the pool releases exactly the blocks that are idle at that time, each once, and none that is live; if every handle was dropped before, every block ever obtained from the backend is released exactly once.", "quantifier": "every finite history", "why_tests_cant": "needs the whole history", "anchors": ["prima_undine/src/memory_pool.rs: Drop"]}
{"id": "C14", "title": "Dropping an unknown or already dropped handle poisons the device", "statement": "drop_handle on a handle which is not live panics without changing the pool's contents, and because the panic happens while the registry lock is held, every later new_handle or drop_handle on this device panics.", "quantifier": "every state and every non-live handle", "why_tests_cant": "error path x history", "anchors": ["prima_undine/src/memory_pool.rs: drop_handle"]}
{"id": "C15", "title": "Tensors on a pooled device behave like independent value arrays", "statement": "For every program made of tensor creation (constant/slice/copy/operation result), in-place updates, views (Tensor::from(&t)) used read-only, and drops, the contents observed with to_vec equal those of an abstract machine in which each tensor owns an independent array; in particular recycled buffers never leak into or overwrite other tensors, and dropping never panics.", "quantifier": "every program (sequence of API calls) and every kernel", "why_tests_cant": "aliasing bugs depend on allocation/drop order", "anchors": ["prima_undine/src/tensor.rs", "prima_undine/src/device.rs", "prima_undine/src/memory_pool.rs"]}
{"id": "C16", "title": "replace() of a borrowed view breaks ownership", "statement": "Full claim (false of the code): a buffer is returned to the pool only when its owning tensor is dropped. Tensor::replace copies the handle out of a view created by Tensor::from(&x) without its reference mark, so dropping the receiver returns x's buffer to the pool while x is alive, a later allocation aliases x, and dropping x as well panics. Histories in which replace only receives owning tensors never do this.", "quantifier": "every program", "why_tests_cant": "requires a specific composition of calls", "anchors": ["prima_undine/src/tensor.rs: refer, replace, Drop, From<&Tensor>"]}
{"id": "C17", "title": "Tensor/Parameter serialisation round-trip", "statement": "Serialising an on-device tensor, deserialising it and moving it to any device yields the same shape and the same to_vec; same for Parameter with value, gradient and all optimizer statistics. move_to_device panics on a tensor that is already on a device or whose number of values differs from its shape's size; serialising a host tensor panics.", "quantifier": "every tensor, every statistics map", "why_tests_cant": "values, shapes and stat maps are unbounded", "anchors": ["prima_undine/src/tensor.rs: Serialize/Deserialize, move_to_device", "prima_undine/src/parameter.rs", "prima_undine/src/model.rs"]}
{"id": "C18", "title": "Device functions never access memory outside their tensors", "statement": "In a build with overflow checks, whatever sequence of constructors, device functions and in-place functions produced its tensors (calls that panicked and were caught included), no device-level function accesses an element outside the buffer of a tensor: it returns or panics. Exceptions (false of the code, proved with witnesses): += and -= between tensors check neither dims nor batch (safe if the operand has at most the volume of the tensor and a compatible batch); batch_pick_bw with several ids runs the kernel of pick_bw; without overflow checks size() wraps around, so a buffer can be smaller than its shape.", "quantifier": "every function of ArithmeticDeviceFunctions/BasicDeviceFunctions, every shape, every content", "why_tests_cant": "unsafe pointer arithmetic over unbounded shapes", "anchors": ["prima_undine/src/devices/naive/*.rs", "prima_undine/src/functions.rs", "prima_undine/src/functions/basic/device.rs", "prima_undine/src/functions/arithmetic/device.rs"]}
{"id": "C19", "title": "Results never depend on recycled memory", "statement": "The outcome (panic, or device, shape and elements of the result) of every forward and backward device function and of new_tensor_by_constant, new_tensor_by_slice and copy_tensor is determined by the input values and arguments only, whatever stale content the freshly allocated (recycled) buffers of results and temporaries have.", "quantifier": "every forward function, inputs and stale buffer content", "why_tests_cant": "the pool returns uninitialised recycled buffers", "anchors": ["prima_undine/src/devices/naive/*.rs", "prima_undine/src/memory_pool.rs"]}
{"id": "C20", "title": "Element-wise, constant and scalar arithmetic", "statement": "For a+b, a-b, a*b, a/b, powf and the unary functions, result element (coords, batch) is the operation applied to the corresponding operand elements, with batch-1 operands broadcast; scalar (0-dim) operands and f32 constants on either side broadcast over all elements, with operand order preserved for - and /.", "quantifier": "every pair of compatible shapes and contents", "why_tests_cant": "all shapes, both operand orders, batch broadcasting", "anchors": ["prima_undine/src/devices/naive/common.rs", "prima_undine/src/functions/arithmetic/tensor.rs: define_ab_op, define_const_op"]}
{"id": "C21", "title": "Axis reductions", "statement": "sum(dim): element at coords is the left-to-right sum over the axis; max/min return an attained bound; argmax/argmin return the first position attaining it; result shape is the input's with that axis set to 1. The fibre visited for each output is exactly the axis fibre, for every dim (also beyond depth).", "quantifier": "every shape, dim and content", "why_tests_cant": "strided index arithmetic over all shapes", "anchors": ["prima_undine/src/devices/naive/sum.rs", "prima_undine/src/devices/naive/max.rs", "prima_undine/src/devices/naive/min.rs", "prima_undine/src/devices/naive/argmax.rs", "prima_undine/src/devices/naive/argmin.rs"]}
{"id": "C22", "title": "argsort is a per-fibre sorting permutation", "statement": "argsort(dim) writes, for each fibre along dim, flat indices forming a permutation of the fibre's positions ordered by value (for totally ordered contents).", "quantifier": "every shape, dim, content", "why_tests_cant": "all shapes", "anchors": ["prima_undine/src/devices/naive/argsort.rs"]}
{"id": "C23", "title": "broadcast repeats along the axis", "statement": "broadcast(dim,size) requires x[dim]==1 and size>0 and returns y with y(coords)=x(coords with dim:=0); sum(dim) of it multiplies by size.", "quantifier": "every shape, dim, size, content", "why_tests_cant": "strided writes must cover the whole output", "anchors": ["prima_undine/src/devices/naive/broadcast.rs", "prima_undine/src/shape_ops.rs: broadcast"]}
{"id": "C24", "title": "matmul equals the mathematical product", "statement": "For compatible matrices with batch broadcasting, the 8x8x8-blocked kernel computes y(i,k;b) = sum_j a(i,j;b)*b(j,k;b), for all sizes (also not multiples of 8), over any commutative semiring.", "quantifier": "all matrix sizes and batches", "why_tests_cant": "blocked loop bounds over all sizes", "anchors": ["prima_undine/src/devices/naive/matmul.rs"]}
{"id": "C25", "title": "transpose, flip, permute_dims, triangular_l/u, identity", "statement": "transpose: y(i,j;b)=x(j,i;b) and transposing twice is the identity; flip reverses one axis and is an involution; permute_dims moves coordinates according to the permutation; triangular_l/u keep exactly the elements with i>=j+k / j>=i+k and zero the others (as long as j+k does not overflow u32); identity kernel yields the unit matrix.", "quantifier": "all shapes, k, permutations, contents", "why_tests_cant": "index arithmetic over all shapes", "anchors": ["prima_undine/src/devices/naive/transpose.rs", "prima_undine/src/devices/naive/flip.rs", "prima_undine/src/devices/naive/permute_dims.rs", "prima_undine/src/devices/naive/triangular_l.rs", "prima_undine/src/devices/naive/triangular_u.rs", "prima_undine/src/devices/naive/identity.rs"]}
{"id": "C26", "title": "slice/split/concat", "statement": "slice(dim,lo,hi) selects the sub-range of the axis; concat stacks along the axis with batch broadcasting; concat of split(dim,n) is the original tensor, and slicing a concat at an argument's offset returns that argument (batch-broadcast). Ranges outside the axis, uneven splits, empty argument lists, axes beyond 7, differing other dims and incompatible batches panic.", "quantifier": "all shapes, lists of tensors of any length, ranges", "why_tests_cant": "pointer walking over any number of operands", "anchors": ["prima_undine/src/devices/naive/slice.rs", "prima_undine/src/devices/naive/concat.rs", "prima_undine/src/functions/basic/tensor.rs: split"]}
{"id": "C27", "title": "pick", "statement": "pick(ids,dim) yields y(coords;b) = x(coords with dim:=ids[b]; b), broadcasting a single id or a batch-1 x.", "quantifier": "all shapes, ids lists, dims", "why_tests_cant": "all shapes/ids", "anchors": ["prima_undine/src/devices/naive/pick.rs"]}
{"id": "C28", "title": "batch functions", "statement": "batch_slice/batch_split/batch_pick/batch_concat/batch_sum act on the batch axis exactly as slice/split/pick/concat/sum act on an ordinary axis; batch_concat(batch_split(x,n)) == x; invalid ranges, ids, uneven splits, empty lists and differing dims panic.", "quantifier": "all shapes, batch sizes, ids", "why_tests_cant": "all shapes/ids", "anchors": ["prima_undine/src/devices/naive/batch_slice.rs", "prima_undine/src/devices/naive/batch_pick.rs", "prima_undine/src/devices/naive/batch_concat.rs", "prima_undine/src/devices/naive/batch_sum.rs"]}
{"id": "C29", "title": "Backward kernels accumulate the adjoint", "statement": "slice_bw, pick_bw, batch_slice_bw_impl, batch_pick_bw_impl, add/sub/mul/div bw, matmul bw, transpose bw, max/min bw add to gx exactly the gradient contribution of every output element that reads the gx element, and leave other elements unchanged.", "quantifier": "all shapes, ids, contents", "why_tests_cant": "scatter-add with repeated ids and batch broadcast", "anchors": ["prima_undine/src/devices/naive/slice.rs", "prima_undine/src/devices/naive/pick.rs", "prima_undine/src/devices/naive/batch_slice.rs", "prima_undine/src/devices/naive/batch_pick.rs", "prima_undine/src/devices/naive/matmul.rs", "prima_undine/src/devices/naive/max.rs"]}
{"id": "C30", "title": "Lazy forward evaluates every needed operator exactly once", "statement": "For any computation graph, forward() on a node runs the operator of each ancestor exactly once over the whole life of the graph, in an order in which arguments precede users, whatever order ties in the priority queue are broken, and afterwards each ancestor's value is the denotation (recursive evaluation) of its expression; nodes that are not ancestors are untouched.", "quantifier": "every finite DAG built through the API, every tie-breaking, every sequence of forward calls", "why_tests_cant": "DAGs and tie-breaking orders are unbounded", "anchors": ["prima_undine/src/graph.rs: forward, OperatorInfoCmp"]}
{"id": "C31", "title": "forward is idempotent and create is side-effect free", "statement": "Creating nodes runs no operator; a second forward() on a node or on any of its ancestors changes nothing.", "quantifier": "every graph and call history", "why_tests_cant": "history property", "anchors": ["prima_undine/src/graph.rs: Node::create, forward"]}
{"id": "C32", "title": "backward accumulates every path exactly once", "statement": "On a graph none of whose ancestor gradients is set, backward() leaves in each ancestor's gradient the sum, over all its uses by ancestors of the root, of the user's contribution computed from the user's final gradient (root seeded with ones): each operator's backward runs exactly once, after all its users', for any tie-breaking.", "quantifier": "every DAG, every tie-breaking", "why_tests_cant": "sharing patterns (diamonds, x+x) are unbounded", "anchors": ["prima_undine/src/graph.rs: backward"]}
{"id": "C33", "title": "Repeated backward", "statement": "backward() twice on the same node, or on a node that already received a gradient, panics. backward() from a second root that shares operators with the first adds the first root's gradient again: gradients of the shared part end up as g1+g2, and a parameter receives 2*g1+g2 instead of g1+g2 (the additive claim is false of the code).", "quantifier": "every DAG, every pair of roots", "why_tests_cant": "history property", "anchors": ["prima_undine/src/graph.rs: backward"]}
{"id": "C34", "title": "Operators with several outputs", "statement": "backward() from one output of split seeds all outputs with ones; backward through split of which some output is unused reaches an unallocated gradient and panics.", "quantifier": "every graph using split", "why_tests_cant": "only some graph shapes trigger it", "anchors": ["prima_undine/src/graph.rs: backward", "prima_undine/src/operators/split.rs"]}
{"id": "C35", "title": "What a panicking operator leaves in its node", "statement": "forward marks the operator as done before running it: if the operator panics (for example reshape to a wrong size, accepted when the node is created), later forward calls skip it and return, and nothing changes its results again; its results have no memory and reading them panics, also those of split and batch_split, which write several results one after the other. What is in the results of an operator that was run, also after panics, is determined by the expression alone, not by the order of the calls. Exception (false of the code, proved with a witness for every shape): a node made of an owned tensor that was never allocated; its forward allocates the value before it panics, so that reading the node afterwards shows the stale contents of the pool's memory.", "quantifier": "every graph, every crash point", "why_tests_cant": "crash point property", "anchors": ["prima_undine/src/graph.rs: forward", "prima_undine/src/operators/reshape.rs", "prima_undine/src/operators/input.rs: InputOwner", "prima_undine/src/operators/split.rs", "prima_undine/src/operators/batch_split.rs"]}
{"id": "C36", "title": "Reverse-mode gradients are the true derivatives", "statement": "For every graph built from the library's operators, after any history of creations, forward and backward calls: if the values are at a point where the operators are differentiable (off kinks and ties, in the domain of ln, sqrt, division, pow), no gradients are there yet and every result of an operator with several results is used, then every execution of backward() (any order of operators of equal depth) completes, and over the reals the gradients it leaves at the inputs and parameters are the gradient of the sum of all elements of the root's results: along every differentiable variation of the leaf values its derivative is the inner product of the leaf gradients with the variation, and each gradient element is the partial derivative; a parameter's own gradient increases by exactly that. (Operators whose backward never completes, C39, and cross entropy with unnormalised targets, C49, are excluded.)", "quantifier": "every DAG, every differentiable leaf variation", "why_tests_cant": "infinitely many graphs; finite differences only sample", "anchors": ["prima_undine/src/graph.rs", "prima_undine/src/operators/*.rs"]}
{"id": "C37", "title": "Element-wise backward formulas are derivatives", "statement": "Over the reals, the backward formula of each unary/constant operator (sin, cos, tan, exp, ln, tanh, sigmoid, softplus, sqrt, abs off 0, powf, powi, prelu/elu off 0, const ops) equals the derivative of its forward formula times the incoming gradient, wherever the function is differentiable.", "quantifier": "all reals in the domain", "why_tests_cant": "tests compare some points in floating point", "anchors": ["prima_undine/src/devices/naive/{sin,cos,tan,exp,ln,tanh,sigmoid,softplus,sqrt,abs,powf,powi,prelu,elu,div}.rs"]}
{"id": "C38", "title": "Node functions agree with Tensor functions", "statement": "Evaluating a BasicFunctions/ArithmeticFunctions call on nodes gives the same shape and values as on tensors. False of the code for: elu (node computes prelu), node op scalar-node with non-scalar (panics at creation, tensors broadcast), pow with a scalar operand (tensor version panics). Holds for the others.", "quantifier": "every function, shape, content", "why_tests_cant": "two parallel implementations over all shapes", "anchors": ["prima_undine/src/functions/basic/node.rs", "prima_undine/src/functions/basic/tensor.rs", "prima_undine/src/operators/*.rs"]}
{"id": "C39", "title": "Every differentiable node function supports backward", "statement": "False of the code: backward through batch_slice and batch_split always panics, through batch_pick it panics unless exactly two ids are given (and is then wrong), through unary minus it always panics (kernel not registered), through sum/logsumexp over an axis beyond depth it panics. Proved: precisely which registered names the backward functions resolve to, and the panics.", "quantifier": "all shapes, ids, contents", "why_tests_cant": "the functions have no test through the node API", "anchors": ["prima_undine/src/functions/basic/device.rs: batch_slice_bw, batch_pick_bw", "prima_undine/src/functions/arithmetic/device.rs: neg_bw", "prima_undine/src/devices/naive.rs", "prima_undine/src/operators/sum.rs", "prima_undine/src/operators/logsumexp.rs"]}
{"id": "C40", "title": "Optimizer update rules", "statement": "One update step changes each parameter element by exactly: SGD v-=s*eta*g; MomentumSGD m=mu*m-s*eta*g, v+=m; Adam the bias-corrected rule with t=epoch+1; after n steps of SGD with gradients g_1..g_n the value is v0 - eta*sum(s_i*g_i), momentum is the exponentially weighted sum.", "quantifier": "every number of steps, parameters, contents", "why_tests_cant": "unbounded training histories", "anchors": ["prima_undine/src/optimizers/*.rs", "prima_undine/src/optimizer.rs"]}
{"id": "C41", "title": "Weight decay and global gradient clipping", "statement": "With weight decay l>0 the gradient used is g+l*v; with threshold c>0 the global L2 norm of all (decayed) gradients used by the update is min(norm, c), all scaled by the same factor; with 0 both are inactive.", "quantifier": "any number of parameters, sizes and contents", "why_tests_cant": "global property over all parameters", "anchors": ["prima_undine/src/optimizer.rs: update_parameters"]}
{"id": "C42", "title": "update_parameters frame and progress", "statement": "A completed update resets every gradient to 0, increments epoch by exactly 1, and touches nothing but value/gradient/own statistics of the given parameters; if an update of some parameter panics, the earlier parameters have been updated and the epoch has not advanced.", "quantifier": "any parameter list and crash point", "why_tests_cant": "crash points", "anchors": ["prima_undine/src/optimizer.rs"]}
{"id": "C43", "title": "Checkpoint/resume", "statement": "Saving the parameters between two updates, reloading and continuing with a new optimizer with the same settings gives the same subsequent values as not interrupting, for SGD and MomentumSGD. False for Adam: epoch is not part of the saved state.", "quantifier": "every history and interruption point", "why_tests_cant": "history property", "anchors": ["prima_undine/src/optimizer.rs", "prima_undine/src/optimizers/*.rs", "prima_undine/src/parameter.rs"]}
{"id": "C44", "title": "Optimizer configuration", "statement": "configure is idempotent, never changes value/gradient or existing statistics, adds exactly the missing statistics initialised with zeros of the parameter's shape; updating a parameter that was not configured panics for MomentumSGD/Adam and not for SGD.", "quantifier": "every parameter state", "why_tests_cant": "all stat maps", "anchors": ["prima_undine/src/parameter.rs: add_stat, has_stat", "prima_undine/src/optimizers/*.rs"]}
{"id": "C45", "title": "Model parameter enumeration", "statement": "parameters() and parameters_mut() of derived models, Vec<Parameter> and Vec<Model> list each parameter of the non-skipped fields exactly once, in declaration order, both the same; hence move_to_device/configure_model/update_model reach every such parameter exactly once.", "quantifier": "every nesting of models", "why_tests_cant": "unbounded nesting", "anchors": ["prima_undine_derive/src/lib.rs", "prima_undine/src/model.rs"]}
{"id": "C46", "title": "contrib functions", "statement": "On tensors and on graph nodes, mean, batch_mean, slice_sum, dropout, dropout_dim (disabled = times 1, rate >= 1 = times 0, otherwise each element times 1/(1-rate) or 0 by its coin), batch_normalization and layer_normalization compute their textbook formulas; slice_sum over any non-empty list is the left-to-right sum starting from zeros; over the reals normalized values have mean 0 and mean square var/(var+eps). False of the code for layer_normalization on nodes: it panics on every non-scalar input.", "quantifier": "all shapes, lists, contents, samples", "why_tests_cant": "compositions over unbounded shapes", "anchors": ["prima_undine_contrib/src/functions/contrib/tensor.rs", "prima_undine_contrib/src/functions/contrib/node.rs"]}
{"id": "C47", "title": "Tensors of different devices never mix", "statement": "Every device function panics (before touching memory) when one of its tensors belongs to another device.", "quantifier": "every function and tensor", "why_tests_cant": "all functions", "anchors": ["prima_undine/src/functions.rs", "prima_undine/src/functions/basic/device.rs", "prima_undine/src/functions/arithmetic/device.rs"]}
{"id": "C48", "title": "Numerically stable forms equal their closed forms", "statement": "Over the reals: softplus computes ln(1+e^x), sigmoid 1/(1+e^-x), the pairwise logsumexp loop computes ln(sum e^{x_j}) for every non-empty fibre, softmax sums to 1 along the axis and is positive.", "quantifier": "all reals, all fibre lengths", "why_tests_cant": "algebraic identities over all inputs", "anchors": ["prima_undine/src/devices/naive/softplus.rs", "prima_undine/src/devices/naive/sigmoid.rs", "prima_undine/src/devices/naive/logsumexp.rs", "prima_undine/src/functions/basic/tensor.rs: softmax"]}
{"id": "C49", "title": "softmax_cross_entropy gradient", "statement": "Over the reals the backward of softmax_cross_entropy w.r.t. the logits is the derivative when the targets sum to 1 along the axis; for other targets it is not (false of the code), and sparse_softmax_cross_entropy's backward is the derivative for all ids.", "quantifier": "all fibre lengths, logits, targets", "why_tests_cant": "all lengths/values", "anchors": ["prima_undine/src/operators/softmax_cross_entropy.rs"]}
{"id": "C50", "title": "A borrowed tensor cannot change", "statement": "Full claim (false of the code): while Tensor::from(&x) borrows x as shared, no call changes what x shows. The view is a Tensor by value, so safe code may bind it mutably and pass it to reset, += or any function that writes: what is written to the view becomes the contents of x, for every value written and every kernel.", "quantifier": "every state, view and written value", "why_tests_cant": "aliasing through two handles of one buffer is visible only with the right composition of calls", "anchors": ["prima_undine/src/tensor.rs: From<&Tensor>, refer, reset"]}
{"id": "C51", "title": "Every buffer comes back", "statement": "Full claim (false of the code): when all tensors are dropped, every buffer is back in the pool and destroying the device releases it. A view made of a tensor without buffer may get its own buffer (alloc, replace); dropping the view does not return it because of its reference mark: the block is lost. In programs in which only owners are allocated and replaced the claim holds (C15).", "quantifier": "every program accepted by the compiler", "why_tests_cant": "requires the whole history of owners and views", "anchors": ["prima_undine/src/tensor.rs: alloc, replace, Drop"]}
{"id": "C52", "title": "Initializers, random tensors and new parameters", "statement": "random_bernoulli/uniform/normal of any shape set every element from its own sample, whatever the memory contained, and panic exactly on the arguments the distribution refuses; each initializer (Constant, Normal, Uniform, XavierUniform) gives a new tensor the values of its distribution, panics on what it does not accept (XavierUniform: non-matrices and, over the reals, every scale <= 0) and on any tensor that already has memory; new_parameter gives these values, zero gradients and no statistics, and panics on a shape with a batch. XavierUniform values lie within scale*sqrt(6/(rows+cols)).", "quantifier": "all shapes, samples, stale memory, arguments", "why_tests_cant": "all shapes and sample sequences", "anchors": ["prima_undine/src/random.rs", "prima_undine/src/devices/naive/random.rs", "prima_undine/src/functions/random/device.rs", "prima_undine/src/initializers", "prima_undine/src/device.rs: new_parameter"]}
{"id": "C53", "title": "reshape and flatten keep storage order", "statement": "reshape(s) of a tensor with as many elements as s returns a tensor with shape s whose element at each storage position is the argument's element at that position (whatever dims and batches), reshaping back gives the tensor back, any other size panics with overflow checks; flatten turns every batch into a vector in storage order. Without overflow checks the size test wraps: a scalar can be reshaped to 2^32+1 elements and then read out of bounds (false of the code in release builds, proved with a witness).", "quantifier": "all shapes, contents, stale memory", "why_tests_cant": "all pairs of shapes", "anchors": ["prima_undine/src/functions/basic/tensor.rs: reshape, flatten", "prima_undine/src/tensor.rs: update_shape"]}
{"id": "C54", "title": "Memory safety of programs that use graphs", "statement": "With overflow checks, in every program that makes nodes with the functions of the library from tensors and parameters it obtained, and calls forward and backward on any nodes in any order (also after a forward or backward that panicked), no call accesses memory outside of the buffers of the tensors: it returns or panics; the same for reading the values and gradients afterwards. Exceptions (false of the code, proved with witnesses): a backward that has to differentiate a batch_pick of several ids, or reaches a parameter whose gradient has not the shape of its value.", "quantifier": "every program, graph, shape and content", "why_tests_cant": "all graphs and all interleavings of calls", "anchors": ["prima_undine/src/graph.rs", "prima_undine/src/operators", "prima_undine/src/functions/basic/node.rs", "prima_undine/src/functions/arithmetic/node.rs"]}
{"id": "C55", "title": "Memory safety of whole programs", "statement": "With overflow checks, in every program that obtains tensors (filled, copied, computed by the device functions, read from nodes or parameters), builds graphs (with the functions of the library or by passing any of its operators, with any device and any argument nodes, to Node::create), runs forward and backward, makes parameters whose gradient has the shape of the value, and configures and updates any number of them with any optimizer, weight decay and gradient clipping, where any call may panic in the middle and the panic be caught, no call accesses memory outside of the buffers: it returns or panics. Exception (false of the code, proved with a witness): a statistic added by the program under the name an optimizer uses, with another shape.", "quantifier": "every program (any interleaving of tensor, graph, parameter and optimizer calls), shape, content and optimizer setting", "why_tests_cant": "all programs", "anchors": ["prima_undine/src/tensor.rs", "prima_undine/src/graph.rs", "prima_undine/src/parameter.rs", "prima_undine/src/optimizer.rs", "prima_undine/src/optimizers"]}
{"id": "C56", "title": "Kernels are found by their names", "statement": "On a device made by Naive::new every device function finds, under the name it asks for, the kernel of that operation (all forward functions; all backward functions but neg_bw and softplus_bw, which have none and panic), and runs it with its own operands and constants on the result it allocated; the registered names are pairwise distinct and call_fw_impl/call_bw_impl run exactly the kernel registered under the string passed, or panic. On any device, register_fw_impl/register_bw_impl under a name change exactly the functions that ask for that name, the last registration counting; a function whose kernel is missing panics for all arguments, and on a device without kernels all functions do. (False of the code, proved with witnesses: batch_slice_bw and batch_pick_bw ask for the kernels of slice_bw and pick_bw; call_fw_impl, callable from safe code, checks nothing and writes out of bounds.)", "quantifier": "every device function, name, kernel, device table and argument", "why_tests_cant": "all names, registrations and arguments", "anchors": ["prima_undine/src/device.rs", "prima_undine/src/devices/naive.rs", "prima_undine/src/functions.rs", "prima_undine/src/functions/basic/device.rs", "prima_undine/src/functions/arithmetic/device.rs", "prima_undine/src/functions/random/device.rs"]}
{"id": "C57", "title": "A training iteration is a step of gradient descent", "statement": "For parameters with zero gradients used in a graph of library operators (with any other inputs), at a point where the operators needed for the loss node are differentiable: backward on the loss node followed by an update of SGD (no weight decay, no clipping) completes, moves every parameter by -scale*eta times the gradient of the loss with respect to the parameters (derivative along every differentiable path of parameter values), and leaves all gradients zero; unless that gradient is zero, every small enough learning rate lowers the loss; and over any number of iterations, each with its own graph, the parameter values are the iterates of gradient descent.", "quantifier": "every graph of library operators, history, parameter list, input, learning rate, number of iterations; over the real numbers", "why_tests_cant": "all graphs, values and run lengths", "anchors": ["prima_undine/src/graph.rs", "prima_undine/src/operators", "prima_undine/src/operators/parameter.rs", "prima_undine/src/optimizer.rs", "prima_undine/src/optimizers/sgd.rs"]}
{"id": "C58", "title": "Threads may share a device", "statement": "Programs whose threads allocate, read, write, drop, share (read-only) and hand over tensors of one device behave, under every schedule of their memory accesses and of the pool's lock operations, as if every tensor had its own memory: at every moment the contents of all tensors are those of an execution of the same actions on independent arrays; a thread that exchanges no tensors computes what it computes alone; there are no data races on buffers and no buffer of a tensor is idle or being recycled; a request of 0 or more than 2^31 elements panics only its own thread; there is no deadlock; and forward functions evaluated by a thread give their mathematical results whatever the other threads do.", "quantifier": "every number of threads, programs, schedules, sizes and contents", "why_tests_cant": "all interleavings", "anchors": ["prima_undine/src/memory_pool.rs", "prima_undine/src/tensor.rs", "prima_undine/src/device.rs", "prima_undine/src/devices/naive.rs"]}
{"id": "C59", "title": "A refused argument disables the randomizer of a device", "statement": "All random functions of a device share one locked randomizer. A random call panics exactly if the pool refuses its size, its distribution refuses its arguments (Bernoulli: probability outside [0,1]; uniform: low not below high; normal: negative deviation), or an earlier call on the device of any of the three functions, whose panic was caught, had refused arguments; as long as there was no such call each element gets its own sample.", "quantifier": "every history of random calls with caught panics, all arguments, shapes and samples", "why_tests_cant": "all histories", "anchors": ["prima_undine/src/devices/naive/random.rs", "prima_undine/src/random.rs", "prima_undine/src/functions/random/device.rs", "prima_undine/src/devices/naive.rs"]}
{"id": "C60", "title": "A caught panic leaves the tensors and the memory intact", "statement": "If a tensor call panics and the panic is caught, unwinding does not panic again; every tensor keeps its contents, except that the tensor passed mutably to a kernel may hold other elements, a host tensor that was being moved may already be on the device with unspecified elements, and a tensor that was moved into the call is dropped. After any number of caught panics the next call behaves as on independent arrays, every tensor can be dropped, the blocks handed out are exactly the buffers of the live owners (nothing is leaked, shared or freed twice), no pool lock is poisoned, and when no tensor is left the destruction of the device gives every block back exactly once.", "quantifier": "every history of calls with any of them panicking, all contents", "why_tests_cant": "all histories and panic points", "anchors": ["prima_undine/src/tensor.rs", "prima_undine/src/device.rs", "prima_undine/src/memory_pool.rs"]}
{"id": "C61", "title": "Borrowed values and gradients of nodes while the graph works", "statement": "Node::inner_value and inner_gradient hand out RefCell borrows that a program may keep. The graph's own borrows never collide: if no borrow is kept, forward, backward and node creation never panic because of one. If borrows are kept: node creation is never disturbed; forward has exactly the executions it would have without them unless a value of a needed, not yet evaluated node is kept, in which case it never completes; if it would otherwise complete it panics at such a node, which is then marked as evaluated without having a value, for ever, also after the borrow is dropped. The differentiating part of backward is undisturbed unless a gradient of the root or of an argument of an ancestor is kept, in which case it never completes.", "quantifier": "every history of creating nodes, keeping and dropping borrows, forward and backward with caught panics, all operators, all orders of equal depth", "why_tests_cant": "all histories", "anchors": ["prima_undine/src/graph.rs (inner_value, inner_gradient, forward, backward)", "prima_undine/src/operators/*.rs"]}
{"id": "C62", "title": "The memory of a graph is released exactly when no node needs it", "statement": "Nodes keep the operators they were computed from alive. After any history of creating and dropping nodes, forward and backward (with caught panics), the value and gradient tensors of an operator have been dropped if and only if no node of the program needs that operator, and never twice; no call ever follows a dangling reference; forward and backward only go through operators that are still there and leave all reference counts as they were; dropping a node drops exactly the operators that no other node needs; creating drops nothing unless the operator has no results; after all nodes are dropped, in any order, everything has been dropped.", "quantifier": "every history of creating nodes, dropping them in any order, forward and backward, all operators and graph shapes", "why_tests_cant": "all histories and graph shapes", "anchors": ["prima_undine/src/graph.rs (Node, DataRef, OperatorInfo, Node::create, forward, backward)"]}
{"id": "C63", "title": "Training with any optimizer, weight decay and clipping uses the true gradients", "statement": "For training runs of any length, each iteration with its own graph of library operators at a point of differentiability: every iteration completes, and the parameters and statistics follow the optimizer's recurrence in which each gradient is the gradient of that iteration's loss at the current parameter values. With SGD and weight decay l2 the step is along the gradient of the loss plus l2/2 times the sum of the squares of all parameter elements; clipping multiplies it by one factor between 0 and 1 so that its norm is the smaller of its norm and the threshold; unless that gradient is zero, every small enough learning rate lowers the regularised loss. MomentumSGD is gradient descent with momentum; Adam's statistics are the moving averages of the gradients and their squares, and its first step moves every element by less than the learning rate against the sign of the gradient.", "quantifier": "every graph of library operators, history, parameter list, input, optimizer, setting, number of iterations; over the real numbers", "why_tests_cant": "all graphs, values, settings and run lengths", "anchors": ["prima_undine/src/graph.rs", "prima_undine/src/operators", "prima_undine/src/operators/parameter.rs", "prima_undine/src/optimizer.rs", "prima_undine/src/optimizers/sgd.rs", "prima_undine/src/optimizers/momentum_sgd.rs", "prima_undine/src/optimizers/adam.rs"]}
{"id": "C64", "title": "What derive(Model) generates", "statement": "The derive macro accepts exactly structs with named fields and at least one lifetime parameter and panics on every other declaration; the generated block implements Model with the first declared lifetime; both generated methods visit exactly the fields without an attribute #[parameter(.., skip, ..)], in declared order (no other attribute form skips a field); on every value of (nested) derived types, vectors and parameters, parameters() lists each reachable parameter exactly once in place order and parameters_mut() lists the same places; the call compiles exactly if all unmarked fields are models. Limit, also proved: the header names the declared type if and only if no type parameter follows a const parameter.", "quantifier": "every declaration and every value of the declared types", "why_tests_cant": "the macro runs on arbitrary declarations", "anchors": ["prima_undine_derive/src/lib.rs: derive_model", "prima_undine/src/model.rs", "prima_undine/src/parameter.rs: parameters, parameters_mut"]}
{"id": "C65", "title": "Raw handles", "statement": "A program that uses the handles got from Device::new_handle like owned values (each given back at most once, to its own device, and not used afterwards) beside tensor calls: no raw handle is ever the buffer of a live tensor or of another raw handle, the pool's registered blocks are exactly those of live owners and raw handles, getting and giving back a handle change no tensor's value, giving back never panics, and every tensor call still behaves as on independent arrays. drop_handle accepts exactly the blocks its pool handed out: a null pointer, a foreign or an already returned one panics. Negation, also proved for every reachable state: device.drop_handle(tensor.handle()) is accepted through a shared reference, silently frees the buffer of the live tensor, the next tensor of the class gets the same buffer, and the second drop panics; tensor.handle().store(..) is accepted and makes two owners of one buffer, the second drop panics.", "quantifier": "every history of tensor calls and raw handle calls, every size, every address the allocator may return", "why_tests_cant": "use after free depends on the history of allocations", "anchors": ["prima_undine/src/device.rs: new_handle, drop_handle", "prima_undine/src/tensor.rs: handle, Drop", "prima_undine/src/memory_pool.rs"]}
{"id": "C66", "title": "Reading a node", "statement": "to_vec, to_float, argmax, argmin and argsort of a node return what the same function returns for the value of the node's expression computed by itself, whatever was evaluated before and in whatever order, also after caught panics; if the expression has no value they panic, every time. Reading a node of the graph always comes to an end, accesses no memory outside of the tensors, and repeated reads return the same, whatever nodes were made, evaluated, differentiated or read in between; shape() of a node that was not evaluated is the shape of the value a read will find. Exception (negation proved for every shape): a node made of an owned tensor without memory panics at the first read and shows the pool's stale memory at the second.", "quantifier": "every program of library node functions, forward, backward and reads, with caught panics", "why_tests_cant": "history property: lazy evaluation with cached results and panics at any point", "anchors": ["prima_undine/src/functions/basic/node.rs: to_vec, to_float, argmax, argmin, argsort", "prima_undine/src/graph.rs: forward, inner_value, shape"]}
{"id": "C67", "title": "No overflow in sigmoid, softplus, logsumexp and softmax", "statement": "In f32 arithmetic (IEEE-754, rounding to nearest with any tie rule, overflow to infinity, NaN), with a math library that is monotone where needed: the elements of sigmoid lie in [0,1] for every input but NaN; softplus of every finite x is finite, at least max(0,x) and at most max(0,x)+1 rounded; logsumexp of finite numbers is finite and at least each of them; ln_softmax of finite numbers is at most 0 and never NaN; softmax of finite numbers lies in [0,1]; sparse_softmax_cross_entropy of finite logits is never NaN or negative, and is finite for logits up to 2^126. Exceptions (false of the code, proved): softplus of minus infinity is NaN; softmax_cross_entropy of finite logits is NaN if one is the largest number, one its negative and the latter's target is 0.", "quantifier": "all shapes, dims, float contents (no bound on magnitude), ids, roundings of ties, math libraries", "why_tests_cant": "all float values: overflow shows only at extremes", "anchors": ["prima_undine/src/devices/naive/sigmoid.rs", "prima_undine/src/devices/naive/softplus.rs", "prima_undine/src/devices/naive/logsumexp.rs", "prima_undine/src/functions/basic/tensor.rs: ln_softmax, softmax, softmax_cross_entropy, sparse_softmax_cross_entropy"]}
{"id": "C68", "title": "Accuracy of sigmoid, softplus, logsumexp and softmax in f32", "statement": "In f32 arithmetic as in C67 with a math library of absolute error eps on exp (arguments <= 0), ln (on [1,2]) and tanh: every element of sigmoid(x) is within eps/2 + 2^-24 + 2^-148 of 1/(1+e^-x), of softplus(x) within 2 eps + (max(0,x)+3) 2^-24 + 2^-149 of ln(1+e^x); logsumexp, ln_softmax and softmax of n+1 numbers of magnitude at most R are within explicit bounds of their exact values (softmax of up to 1000 logits of magnitude up to 100: within 1/4000), and the softmax sums to 1 up to n+1 times its bound.", "quantifier": "all shapes, dims, finite float contents, libraries and tie rules; for the reductions any number of elements n with n*(2 eps + (3(R+n)+7) 2^-53) <= 1", "why_tests_cant": "error bounds over all float values and lengths", "anchors": ["prima_undine/src/devices/naive/sigmoid.rs", "prima_undine/src/devices/naive/softplus.rs", "prima_undine/src/devices/naive/logsumexp.rs", "prima_undine/src/functions/basic/tensor.rs: ln_softmax, softmax"]}
{"id": "C69", "title": "Rounding error of sums and matrix products in f32", "statement": "In f32 arithmetic (every operation rounded to nearest, either tie rule): sum along an axis and batch_sum of n finite elements, if they do not overflow, are within ((1+2^-24)^(n-1) - 1) * sum|x| of the exact sum; an element of matmul with inner length n is within ((1+2^-24)^(7+ceil(n/8)) - 1) * (sum|x y| + n 2^-126) of the exact dot product; whole numbers whose magnitudes sum to at most 2^24 are added and multiplied exactly. Limit: the result depends on the order of the elements (2^26 first and then n ones gives 2^26, the ones first gives 2^26+n up to 4).", "quantifier": "all shapes, dims, lengths, finite float contents without overflow, tie rules", "why_tests_cant": "error bounds over all float values and lengths", "anchors": ["prima_undine/src/devices/naive/sum.rs", "prima_undine/src/devices/naive/batch_sum.rs", "prima_undine/src/devices/naive/matmul.rs"]}
{"id": "C70", "title": "Gradient clipping and Adam in f32", "statement": "In f32 arithmetic: an update with clipping (kappa > 0, no weight decay) applies gradients each of which lies between 0 and the original one (never enlarged, flipped or NaN); if the squares do not overflow and kappa >= 2^-30, they are the original ones or all of them times one factor in [0,1], and their norm is at most kappa (1 + 4 (M + number of parameters + 3) 2^-24), M the largest parameter. Limits: with one element of magnitude >= 2^64 the squared norm is infinite, all gradients become zero and SGD does not move; gradients of magnitude <= 2^-76 are never clipped, however small kappa. Adam's second moments are never negative or NaN; a gradient element >= 2^70 makes the moment infinite, and then that element never moves again.", "quantifier": "all parameter lists, shapes, finite gradients, thresholds, epochs, tie rules", "why_tests_cant": "float overflow and accumulated rounding cannot be covered by examples", "anchors": ["prima_undine/src/optimizer.rs: update_parameters", "prima_undine/src/optimizers/adam.rs"]}
{"id": "C71", "title": "max, min, argmax, argmin and argsort with NaN, infinities and signed zeros", "statement": "For any f32 contents: on every fibre that starts with NaN, max and min are NaN and argmax and argmin are position 0; on every other fibre NaNs are left out, and the value and position are those of the first of the greatest (least) elements, -0 and +0 being equal. The gradient of max and min goes to exactly that element; for a fibre that starts with NaN it is lost: no element receives anything. argsort sorts contents without NaN (and always along an axis of extent 1); along an axis of extent 2 or more it panics as soon as one element anywhere is NaN.", "quantifier": "all shapes, dims, float contents including NaN, infinities and zeros of either sign; every sorting algorithm", "why_tests_cant": "all float values, special values in every position", "anchors": ["prima_undine/src/devices/naive/max.rs (max, max_bw)", "prima_undine/src/devices/naive/min.rs (min, min_bw)", "prima_undine/src/devices/naive/argmax.rs", "prima_undine/src/devices/naive/argmin.rs", "prima_undine/src/devices/naive/argsort.rs"]}
{"id": "C72", "title": "Activation functions and their gradients in f32", "statement": "relu, prelu and elu return positive numbers and infinity unchanged; relu of other finite numbers is zero, prelu k*x rounded once, elu with k >= 0 a number in [-k,0] (also for minus infinity). A finite gradient passes relu unchanged where x is positive and becomes zero elsewhere; abs passes it unchanged, negated or as zero; what sigmoid and tanh pass lies between 0 and the gradient, for sigmoid at most a quarter of it up to rounding. Limits, proved: relu of minus infinity is NaN (0 times infinity); an infinite gradient becomes NaN in relu where x is not positive; at a zero of the argument the gradient of sqrt and ln is infinite, and NaN if the incoming gradient is zero.", "quantifier": "all shapes and float contents, tie rules, math libraries as in C67", "why_tests_cant": "all float values, special values in every position", "anchors": ["prima_undine/src/devices/naive/prelu.rs", "prima_undine/src/devices/naive/elu.rs", "prima_undine/src/devices/naive/abs.rs", "prima_undine/src/devices/naive/sigmoid.rs", "prima_undine/src/devices/naive/tanh.rs", "prima_undine/src/devices/naive/sqrt.rs", "prima_undine/src/devices/naive/ln.rs", "prima_undine/src/functions/basic/tensor.rs: relu, lrelu"]}
{"id": "C73", "title": "Steps of SGD in f32", "statement": "One update with SGD without decay and clipping at rate r (scaling times eta, rounded; r >= 0), in f32: no element with finite value v and gradient g becomes NaN or moves in the direction of its gradient, not even if the step overflows; for magnitudes up to 2^126 the result is within (|v| + 3 r|g|) 2^-24 + 2^-148 of v - r g. Limit: an element (|v| >= 2^-99) whose step is at most 2^-26 |v| does not move at all, and over any number of such updates it stays where it was, however far the steps together would have moved it.", "quantifier": "all parameter lists, shapes, finite values and gradients, rates, tie rules, numbers of iterations", "why_tests_cant": "all float values and run lengths", "anchors": ["prima_undine/src/optimizer.rs: update_parameters", "prima_undine/src/optimizers/sgd.rs", "prima_undine/src/parameter.rs"]}
{"id": "C74", "title": "Are values and gradients the same in every execution?", "statement": "The heaps of forward and backward order operators by depth (length of the longest chain of arguments) only; equal ones come in an order that the heap's implementation decides. After any history, if the needed operators can be evaluated, all executions of forward end with the same values; and if no value is used by two operators of equal depth, all executions of backward end with the same values, gradients and parameter gradients, bit for bit, whatever the numbers, or none completes. Limit: with three operators of equal depth that use the same parameter, two executions give different f32 gradients (the derivative of k1 x + k2 x + k3 x, exactly 2^26 - 1, comes out as 2^26 - 4 or 2^26).", "quantifier": "every history, graph, operator, type of numbers, order of operators of equal depth", "why_tests_cant": "all orders of the heap and all graphs", "anchors": ["prima_undine/src/graph.rs: forward, backward, OperatorInfoCmp"]}
{"id": "C75", "title": "Means, dropout and normalizations in f32", "statement": "In f32: mean and batch_mean of n <= 2^24 numbers are within ((1 + 2^-24)^n - 1) sum|x| / n + 2^-150 of the exact mean unless the sum may overflow. A dropout or batch normalization that is not enabled returns every bit of its argument. dropout and dropout_dim with a rate in [0, 1): dropped elements are exactly 0 and kept ones are x / (1 - rate) with relative error 2^-22 (|x| <= 2^102). batch_normalization and layer_normalization of finite numbers up to 2^103 in groups of n <= 2^24, with epsilon >= 2^-100, return finite numbers only, of magnitude at most (|gamma| sqrt n + |beta|)(1 + 2^-20) + 2^-149, even where the squares overflow; elements of one group with the same gamma >= 0 and beta keep their order; a group of one, or of zeros, gives exactly beta. Limits: with epsilon = 0 such groups give NaN; two batches of elements >= 2^127 give NaN with any epsilon (the sum overflows); and dropout turns an element >= 2^127 into NaN when it is dropped, because it is scaled first.", "quantifier": "all shapes, finite values, rates, coins, epsilon, gamma, beta, tie rules", "why_tests_cant": "all float values and sizes", "anchors": ["prima_undine_contrib/src/functions/contrib/tensor.rs: mean, batch_mean, dropout, dropout_dim, batch_normalization, layer_normalization"]}
{"id": "C76", "title": "A minibatch is its samples", "statement": "Take any network written with the per-sample functions (elementwise functions, + - * /, pow, matmul, sum/mean/max/min/logsumexp/softmax over a dim, slice, split, concat, pick, reshape and flatten per sample, cross entropies, layer normalization, dropout and batch normalization when not enabled), with arguments that have one batch (parameters) or one batch per sample. If it runs on a minibatch of B samples, it also runs on any selection of them (a single sample, a smaller minibatch, another order), in every build, and every tensor it computes there has exactly the elements, bit for bit and in any number format, that the minibatch has for these samples; memory contents do not matter. batch_pick takes such a selection. batch_sum of a result is the sum of the results of the single samples in their order. batch_normalization when enabled is an exception: a sample's result depends on the other samples.", "quantifier": "all networks, minibatches, selections of samples, number formats and memory contents", "why_tests_cant": "an unbounded family of programs, shapes and batches", "anchors": ["prima_undine/src/functions/basic/tensor.rs", "prima_undine/src/functions/arithmetic/tensor.rs", "prima_undine/src/devices/naive: the forward kernels", "prima_undine/src/shape_ops.rs", "prima_undine_contrib/src/functions/contrib/tensor.rs"]}
{"id": "C77", "title": "The gradient of a minibatch is the sum of the gradients of its samples", "statement": "Take a graph whose loss, up to an optional final batch_sum or batch_mean, is computed by operators that treat the samples of a minibatch of B samples separately (every operator except the ones on batches), and for each sample the graph that the same program makes for this sample alone. In real arithmetic, where the operators are differentiable, backward completes in all of these graphs, whatever order the operators are taken in. Every element of the gradient of a parameter (one batch, shared by the samples) is the sum over the samples of this element of the parameter's gradient in the sample's graph, the mean if the loss ends in batch_mean. Batch b of the gradient of an input with one batch per sample is the gradient of the input of sample b (divided by B for batch_mean).", "quantifier": "all graphs, parameters, minibatches, points of differentiability and execution orders", "why_tests_cant": "an unbounded family of graphs and batches, and real-valued equations", "anchors": ["prima_undine/src/graph.rs: Graph::backward", "prima_undine/src/operators/*.rs: backward", "prima_undine/src/functions/basic/node.rs", "prima_undine_contrib/src/functions/contrib/node.rs: batch_mean"]}
{"id": "C78", "title": "Gradient accumulation", "statement": "Several graphs can use the same parameters one after another, with backward called in each and no update in between. In real arithmetic, where the operators are differentiable, every backward completes; values and statistics of the parameters stay as they are, and the gradients are what they were plus the gradient of the sum of the losses of all these graphs. In particular, taking the samples of a minibatch one by one (a graph and a backward for each) adds the sum of the samples' gradients, whereas backward in the graph of the whole minibatch adds the same for a loss that is per sample or ends in batch_sum, and 1/B of it for batch_mean; in the first case the next update of any optimizer leaves the same values, gradients and statistics in the parameters either way.", "quantifier": "all sequences of graphs, parameters with any gradients, minibatches, optimizers and execution orders", "why_tests_cant": "unbounded sequences of graphs; real-valued equations", "anchors": ["prima_undine/src/graph.rs: Graph::backward, Node::backward", "prima_undine/src/operators/parameter.rs: backward", "prima_undine/src/parameter.rs", "prima_undine/src/optimizer.rs: Optimizer::update_parameters"]}
{"id": "C79", "title": "Distribution of dropout, random tensors and initializers", "statement": "If the samplers follow their laws (independent samples with the distribution that was asked for), then in real arithmetic and whatever the memory contained: dropout with a rate in [0, 1) sets every element to 0 with probability rate and divides it by 1 - rate otherwise, independently of all other elements, so that its expectation is the input (what dropout returns when it is not enabled) and its variance x^2 * rate / (1 - rate); dropout_dim has the same expectations and variances, keeps or drops the elements along the axis together, and treats positions that differ elsewhere independently. The elements of bernoulli, uniform and normal tensors and of parameters by the Uniform, Normal and XavierUniform initializers are independent with that distribution, mean and variance; for XavierUniform(scale) the variance is 2 * scale^2 / (rows + columns), and a linear layer with such a matrix gives every output the mean 0 and the variance 2 * scale^2 / (rows + columns) times the sum of squares of its inputs.", "quantifier": "all shapes, inputs, rates, parameters of the distributions, probability spaces and samplers that follow the laws, memory contents, profiles", "why_tests_cant": "distributions and independence are statements about infinitely many executions; tests only estimate them", "anchors": ["prima_undine/src/random.rs: DefaultRandomizer", "prima_undine/src/functions/random/device.rs", "prima_undine/src/devices/naive/random.rs", "prima_undine/src/initializers/*.rs", "prima_undine_contrib/src/functions/contrib/tensor.rs: dropout, dropout_dim"]}
{"id": "C80", "title": "Training with SGD converges", "statement": "In real arithmetic, for a run of N iterations (build a graph, backward, drop the graph, update with SGD without weight decay and clipping) in which the operators are differentiable: if every iteration has the same loss and its gradient is Lipschitz continuous with constant K, then with steps (scaling times learning rate) of at most 1/K no iteration increases the loss, each lowers it by at least half the step times the squared norm of the gradient, and for a loss bounded below some gradient during the run has a squared norm of at most twice the initial excess of the loss over the sum of the steps. If the loss is convex too, its final excess over the loss at any point u is at most the squared initial distance to u over twice the sum of the steps, and the distance to a minimum never grows. If every iteration has its own convex loss (minibatches), the losses during the run, weighted by the steps, exceed those of any fixed u by at most half of the squared initial distance to u plus the sum of the squared steps times the squared norms of the gradients.", "quantifier": "all graphs, parameters, inputs, numbers of iterations, learning rates and their scalings, execution orders, points of comparison", "why_tests_cant": "runs of every length on every network; real-valued inequalities", "anchors": ["prima_undine/src/graph.rs: Graph::backward, Node::backward", "prima_undine/src/optimizer.rs: Optimizer::update_parameters", "prima_undine/src/optimizers/sgd.rs", "prima_undine/src/parameter.rs"]}
{"id": "C81", "title": "Training with SGD, weight decay and gradient clipping", "statement": "In real arithmetic, for a run of N iterations with SGD in which the operators are differentiable: with weight decay l2 the parameters follow the negative gradient of the regularised loss (loss plus l2/2 times the sum of squares of all elements of all parameters), and clipping only shortens the step, to the threshold. If all iterations have the same convex loss with a K-Lipschitz gradient, no clipping and steps of at most 1/(K + l2), the regularised loss never increases and the squared distance to its minimum shrinks in every iteration by the factor 1 - step * l2 (geometric convergence). With clipping, whatever the losses, an iteration moves the parameters by a distance of at most the step times the threshold, and a run by at most the sum of these; and for one smooth loss the regularised loss falls in every iteration by at least half the step times the gradient's norm times the smaller one of that norm and the threshold, so that for a loss bounded below some iteration has a small gradient.", "quantifier": "all graphs, parameters, inputs, numbers of iterations, learning rates and their scalings, decays, thresholds and execution orders", "why_tests_cant": "runs of every length on every network; real-valued inequalities", "anchors": ["prima_undine/src/optimizer.rs: Optimizer::update_parameters", "prima_undine/src/optimizers/sgd.rs", "prima_undine/src/graph.rs: Graph::backward, Node::backward", "prima_undine/src/parameter.rs"]}
{"id": "C82", "title": "Training with MomentumSGD converges", "statement": "In real arithmetic, for a run of N iterations with MomentumSGD (no weight decay, no clipping, statistics zero at the start, momentum mu in [0,1)) in which the operators are differentiable: if all iterations have the same convex loss with a K-Lipschitz gradient and the step r (scaling times learning rate) is constant and at most (1 - mu)/K, then the excesses of the losses over the minimum, summed over the whole run, are at most mu/(1 - mu) times the initial excess plus (1 - mu)/(2r) times the squared initial distance to the minimum, so the best iterate has an excess of at most that over N. Whatever the losses: if the gradients have norms of at most G and the steps are at most r, no iteration moves the parameters by more than G r / (1 - mu).", "quantifier": "all graphs, parameters, inputs, numbers of iterations, rates, momenta and execution orders", "why_tests_cant": "runs of every length on every network; real-valued inequalities", "anchors": ["prima_undine/src/optimizer.rs: Optimizer::update_parameters", "prima_undine/src/optimizers/momentum_sgd.rs", "prima_undine/src/graph.rs: Graph::backward, Node::backward", "prima_undine/src/parameter.rs"]}
{"id": "C83", "title": "Steps of Adam: bias correction and bounded steps", "statement": "In real arithmetic, for a run of N iterations with Adam (no weight decay, no clipping, statistics zero and epoch 0 at the start, beta1 and beta2 in [0,1)) in which the operators are differentiable: after n iterations the statistics Adam.m1 and Adam.m2 are 1 - beta1^n and 1 - beta2^n times averages of the gradients so far and of their squares (between any bounds of these), and the step uses these averages; while an element's gradient is always the same number x, it moves by exactly the rate times x/(|x| + eps). Whatever the gradients, every element moves in every iteration by at most the rate times (1 - beta1)/sqrt((1 - beta2)(1 - beta1^2/beta2)) if 1 - beta2 <= (1 - beta1)^2 (7.28 times the rate for 0.9 and 0.999), and by the rate over sqrt((1 - beta2)(1 - beta1^2/beta2)) whenever beta1^2 < beta2.", "quantifier": "all graphs, parameters, inputs, numbers of iterations, rates, betas, eps and execution orders", "why_tests_cant": "runs of every length with every sequence of gradients; real-valued inequalities", "anchors": ["prima_undine/src/optimizer.rs: Optimizer::update_parameters", "prima_undine/src/optimizers/adam.rs", "prima_undine/src/graph.rs: Graph::backward, Node::backward", "prima_undine/src/parameter.rs"]}
{"id": "C84", "title": "Training depends only on the loss; scaling the loss is changing the settings", "statement": "In real arithmetic, take two runs of training with equally many iterations from the same values and zero statistics, in which the operators are differentiable. If in every iteration the losses are equal as functions of the parameters' values, then with the same optimizer settings the parameters have the same values after every iteration, whatever graphs compute the losses, on whatever devices, in whatever builds and execution orders. If every loss of the second run is c > 0 times that of the first (batch_sum instead of batch_mean, for instance), the same holds when the second optimizer has its learning rate divided by c (SGD, MomentumSGD) or its eps multiplied by c (Adam), and its weight decay and clipping threshold multiplied by c.", "quantifier": "all pairs of runs, optimizers, settings, factors, numbers of iterations, graphs, devices and execution orders", "why_tests_cant": "pairs of runs of every length on every pair of networks", "anchors": ["prima_undine/src/optimizer.rs: Optimizer::update_parameters", "prima_undine/src/optimizers/*.rs", "prima_undine/src/graph.rs: Graph::backward, Node::backward", "prima_undine/src/parameter.rs"]}
{"id": "C85", "title": "Rounding errors of whole programs", "statement": "Take any sequence of calls of +, -, *, /, neg, abs, tanh, sigmoid, relu, lrelu, prelu, matmul, sum, mean, batch_sum, batch_mean, slice sums and the functions that move elements, on f32 tensors, that returns. Then the same calls in exact arithmetic return tensors of the same shapes, and every element of every intermediate and final f32 result deviates from the exact one by at most the bound that classical running error analysis gives ((1+2^-24)^k - 1 times a size computed from absolute values along the same calls, k counting roundings along the longest path; blockwise summation in matmul counts n/8+8), wherever that analysis excludes overflow. In particular a layer tanh(W x) with inner products of length n has an error of at most ((1+2^-24)^(10+ceil(n/8)) - 1)(sum |w||x| + tiny + eps 2^24).", "quantifier": "all programs of these calls, shapes, f32 elements and constants, memory contents, devices and builds", "why_tests_cant": "programs of every length on every value; the bound has to hold for every choice of inputs and cannot be read off from samples", "anchors": ["prima_undine/src/functions/basic/tensor.rs", "prima_undine/src/functions/arithmetic/tensor.rs", "prima_undine_contrib/src/functions/contrib/tensor.rs", "prima_undine/src/devices/naive/*.rs"]}
{"id": "C86", "title": "Whole numbers are computed exactly", "statement": "Take any sequence of calls as in C85, also with max, on f32 tensors of whole numbers, that returns. As long as the magnitudes (the same calls on absolute values, subtraction turned into addition) stay within 2^24 and no function is called that leaves the whole numbers, every element of every intermediate and final result is exactly the whole number that exact arithmetic gives: no rounding, and no dependence on the order of summation.", "quantifier": "all programs of these calls, shapes, whole-number elements and constants, memory contents, devices and builds", "why_tests_cant": "programs of every length on every value", "anchors": ["prima_undine/src/functions/basic/tensor.rs", "prima_undine/src/functions/arithmetic/tensor.rs", "prima_undine/src/devices/naive/*.rs"]}
{"id": "C87", "title": "Adam in f32: no NaN, but one huge gradient freezes an element forever", "statement": "Adam without weight decay and clipping in f32, with a rate of at most 1 in magnitude, betas in (0, 1-2^-20], any run of updates with gradients of at most 2^80 in magnitude: with eps > 0 the statistics never become NaN and no finite parameter element becomes NaN in an update. But (finding) if in one iteration a gradient element is between 2^75 and 2^80, the second moment overflows to infinity, stays infinite, and the parameter element keeps exactly its value in that and all later iterations, whatever gradients follow. With eps = 0 an element whose gradients have been zero so far becomes NaN.", "quantifier": "all runs of any length, all parameters, shapes, elements, gradients and settings in range, every f32 arithmetic satisfying IEEE rounding, every powf that does not enlarge numbers in (0,1]", "why_tests_cant": "histories of every length: that an element never moves again after a given iteration is a statement about all continuations", "anchors": ["prima_undine/src/optimizers/adam.rs: Adam::update_parameter", "prima_undine/src/optimizer.rs: Optimizer::update_parameters", "prima_undine/src/parameter.rs"]}
{"id": "C88", "title": "NaN and the optimizers: a NaN is permanent, switches clipping off and spreads no further", "statement": "For every run of `update_parameters` in f32: an element whose gradient or value is NaN once is NaN after that update and forever, with SGD, MomentumSGD and Adam, with any weight decay and gradient clipping. One NaN among the gradients of all registered parameters switches clipping off for all of them: the update is exactly the one without clipping, however large the other gradients are. Without clipping, an element depends only on its own value, statistics and gradients: NaN in other elements or parameters never reaches it. With MomentumSGD (rate at most 1, momentum in [0, 1 - 2^-20]) and finite gradients of at most 2^80 no NaN appears in any number of updates, also not after the value has overflowed.", "quantifier": "all lists of parameters, shapes, values, statistics, gradients, hyperparameters and numbers of updates", "why_tests_cant": "a test runs a few updates with a few gradients; the claims are about all of them, and for NaN about everything that follows", "anchors": ["prima_undine/src/optimizer.rs:update_parameters", "prima_undine/src/optimizers/sgd.rs:update_parameter", "prima_undine/src/optimizers/momentum_sgd.rs:update_parameter", "prima_undine/src/optimizers/adam.rs:update_parameter"]}
{"id": "C89", "title": "Information flow: what an element of a result can depend on", "statement": "Take any sequence of calls of tensor functions (arithmetic, element-wise functions, matmul, reductions except min, softmax, cross entropies, normalizations, all functions that move elements), run on two lists of tensors of the same shapes that differ in some marked elements only. If it returns for the first, it returns for the second, and an element of a result or intermediate result differs only if a marked element flows into it, as found by running the same calls on the marks with every operation replaced by \"one of the operands is marked\". In particular NaN or infinity in one place cannot disturb results it does not flow into. What flows into a result from several elements is the union of what flows from each. Whether a sequence of calls returns or panics depends on the shapes only, never on the elements, the constants or the type of the numbers.", "quantifier": "all programs of these calls, shapes, elements (NaN and infinities included), constants, sets of marked elements, memory contents, builds and every arithmetic", "why_tests_cant": "programs of every length on every pair of inputs", "anchors": ["prima_undine/src/functions/basic/tensor.rs", "prima_undine/src/functions/arithmetic/tensor.rs", "prima_undine_contrib/src/functions/contrib/tensor.rs", "prima_undine/src/devices/naive/*.rs"]}
{"id": "C90", "title": "Infinite logits: masking with minus infinity in logsumexp and softmax", "statement": "In f32, with a math library whose exp and ln treat NaN, minus infinity, 0 and 1 as usual: `logsumexp` is NaN exactly if an element is NaN, the axis begins with two elements minus infinity, or two elements are plus infinity; otherwise it is plus infinity if an element is, minus infinity only for an axis consisting of that one element, and finite in all other cases. Masking with minus infinity is removing: if the axes of two tensors hold the same finite elements in the same order and otherwise only minus infinity, and neither begins with two of them, their logsumexp is the same (up to the sign of a zero), the softmax of the unmasked elements is the same bit by bit, softmax is in [0,1] and exactly 0 at masked positions (ln_softmax minus infinity), and the backward function of logsumexp gives masked positions exactly 0; sparse_softmax_cross_entropy is at least 0 and never NaN (plus infinity if the target class itself is masked). Limits (findings): if the axis begins with two masked elements, everything along it is NaN whatever the other logits are; softmax_cross_entropy is NaN if a masked class has the target 0.", "quantifier": "all shapes, dims, elements (infinities and NaN included), positions and numbers of masked elements, axis lengths, tie rules, math libraries as described", "why_tests_cant": "NaN depends on where in an axis of any length the masked elements are; a test with one masked position passes", "anchors": ["prima_undine/src/devices/naive/logsumexp.rs: LogsumexpFwImpl::call", "prima_undine/src/operators/logsumexp.rs: Logsumexp::backward", "prima_undine/src/functions/basic/tensor.rs: ln_softmax, softmax, softmax_cross_entropy"]}
{"id": "C91", "title": "The gradients of logsumexp and the cross entropies are bounded in f32", "statement": "In f32, for logits that are finite or minus infinity (one of them finite, not beginning with two minus infinities along the axis), and a finite gradient g of the loss: the backward function of `softmax_cross_entropy` with targets in [0,1] adds to the gradient of each logit a number of magnitude at most |g| - no NaN and no overflow, however large the logits are, and also where the loss itself is NaN or infinite (C67, C90) - and exactly 0 at masked logits with target 0. That of `sparse_softmax_cross_entropy`, on a zero gradient, gives the target class a number between 0 and -g and every other class one between 0 and g, exactly 0 if masked. That of `logsumexp`, given its own result, adds to each logit a number between 0 and g.", "quantifier": "all shapes, dims, logits, targets, class ids, gradients, tie rules, math libraries as in C90", "why_tests_cant": "all float values; overflow, cancellation and NaN show only at extremes", "anchors": ["prima_undine/src/operators/softmax_cross_entropy.rs: SoftmaxCrossEntropy::backward, SparseSoftmaxCrossEntropy::backward", "prima_undine/src/devices/naive/pick.rs", "prima_undine/src/devices/naive/logsumexp.rs"]}
{"id": "C92", "title": "Order of elements survives f32 rounding", "statement": "In f32 rounding never reverses an order: `softmax` and `ln_softmax` along an axis (logits as in C91) never give a larger logit a smaller result and give equal logits equal results, so the ranking by logits is never contradicted by the ranking by probabilities; `sigmoid` keeps the order of all elements of a tensor, infinite ones included; adding or subtracting a finite constant and multiplying with a positive one keep it, also where the results overflow; subtracting from a constant and multiplying with a negative one reverse it. Dividing by a positive constant, `relu`, `prelu` with a coefficient that is not negative and `sqrt` keep it wherever the results are not NaN; `elu` with a coefficient that is not negative keeps it everywhere. If a tensor is elementwise at most another one, so are their `sum`s, `batch_sum`s, `mean`s, `batch_mean`s and `matmul`s with a right operand without negative elements, wherever neither result is NaN: a larger input never gives a smaller output. `exp` and `tanh` of the library are assumed not to reverse an order themselves.", "quantifier": "all shapes, dims, elements (finite and infinite), constants, pairs of positions, tie rules, math libraries that do not reverse orders", "why_tests_cant": "ranges over all pairs of floats, including near-ties where one rounding could swap the pair", "anchors": ["prima_undine/src/functions/basic/tensor.rs: softmax, ln_softmax", "prima_undine/src/devices/naive/sigmoid.rs", "prima_undine/src/devices/naive/add.rs", "prima_undine/src/devices/naive/mul.rs", "prima_undine/src/devices/naive/sub.rs", "prima_undine/src/devices/naive/div.rs", "prima_undine/src/devices/naive/prelu.rs", "prima_undine/src/devices/naive/elu.rs", "prima_undine/src/devices/naive/sqrt.rs", "prima_undine/src/devices/naive/sum.rs", "prima_undine/src/devices/naive/batch_sum.rs", "prima_undine/src/devices/naive/matmul.rs"]}
{"id": "C93", "title": "Predicting from logits and predicting from probabilities agree up to rounding ties", "statement": "In f32, for logits as in C91, let k be the class `argmax` gives along an axis and k' the class `argmax` gives for the `softmax` (or `ln_softmax`) of the same logits. Then no class has a greater probability than k; k' has exactly the probability of k, and k' <= k: the two predictions can differ only where rounding made the probability of an earlier class with a smaller logit equal to the greatest one. They do differ: of the logits [0, 2^-100] `argmax` picks class 1, of their softmax class 0, with every accurate math library.", "quantifier": "all shapes, dims, logits (finite or masked), tie rules, math libraries as in C92", "why_tests_cant": "ranges over all logits; disagreement needs near-ties of particular floats", "anchors": ["prima_undine/src/functions/basic/tensor.rs: softmax, ln_softmax, argmax", "prima_undine/src/devices/naive/argmax.rs", "prima_undine/src/devices/naive/logsumexp.rs"]}
{"id": "C94", "title": "Identities that hold exactly in f32", "statement": "In f32, for every element, NaN, infinities and signed zeros included: `x * 1`, `1 * x`, `x / 1`, `x - 0` and `-(-x)` give back the tensor bit by bit, `x + 0` does so up to the sign of a zero; `abs(-x)` and `abs(abs(x))` equal `abs(x)` bit by bit; `relu(relu(x))` equals `relu(x)` up to the sign of a zero (also NaN where x is minus infinity, C72); `x - x` is 0 exactly where x is finite and NaN elsewhere; `x / x` is exactly 1 where x is finite and not zero and NaN elsewhere.", "quantifier": "all shapes, batches, elements, tie rules", "why_tests_cant": "ranges over all float values and both zeros", "anchors": ["prima_undine/src/devices/naive/mul.rs", "prima_undine/src/devices/naive/div.rs", "prima_undine/src/devices/naive/sub.rs", "prima_undine/src/devices/naive/add.rs", "prima_undine/src/devices/naive/neg.rs", "prima_undine/src/devices/naive/abs.rs", "prima_undine/src/devices/naive/prelu.rs"]}
{"id": "C95", "title": "Printed shapes and the shape! macro", "statement": "`{:?}` of two shapes gives the same text exactly when the shapes are equal, that is when batch and every dimension are the same: an assertion message or a log line determines the shape it is about, also in a build where the volumes have wrapped around. `shape![a, b; n]` calls `Shape::new(&[a, b], n)`, `shape![a, b]` and `shape![a, b,]` call it with batch 1, for any number of dims including none, and nothing else compiles; in particular a comma before `;` does not.", "quantifier": "all pairs of shapes, all token sequences between the brackets", "why_tests_cant": "ranges over all numbers, lists of dims and token sequences", "anchors": ["prima_undine/src/shape.rs: impl Debug for Shape", "prima_undine/src/macros.rs: shape!"]}
{"id": "C96", "title": "Laws of matrix products and of + and * that hold bit by bit", "statement": "Whatever the arithmetic does (so in f32 with rounding, overflow and NaN): the columns `lower..upper` of `matmul(x, y)` are bit by bit the product of `x` with these columns of `y`, and its rows that of these rows of `x` with `y` - computing a product in pieces, or one sample as a column of a larger matrix, never changes a result, although the sums are blocked. In f32 `transpose(matmul(x, y))` is bit by bit `matmul(transpose(y), transpose(x))`, and `x + y`, `x * y` are bit by bit `y + x`, `y * x` with scalars and batches broadcast on either side.", "quantifier": "all shapes, batches, elements, column and row ranges, contents of recycled memory, tie rules", "why_tests_cant": "ranges over all sizes (the blocking of the sums depends on them) and all float values; an implementation that chose its blocking by the number of columns would pass tests with exact numbers", "anchors": ["prima_undine/src/devices/naive/matmul.rs: MatmulFwImpl::call", "prima_undine/src/devices/naive/transpose.rs", "prima_undine/src/devices/naive/slice.rs", "prima_undine/src/functions/arithmetic/tensor.rs"]}
{"id": "C97", "title": "Rearranging elements and computing with them can be exchanged", "statement": "Whatever the arithmetic does: for every elementwise function u (neg, sqrt, abs, sin, cos, tan, exp, ln, tanh, sigmoid, softplus, relu, lrelu, prelu, elu, powf and the operations with a constant on either side) and every function r that moves elements (`transpose`, `slice`, `broadcast`, `pick`, `batch_slice`, `batch_pick`, `reshape`, `flatten`, and every chain of them), `r(u(x))` and `u(r(x))` have the same shape and the same elements bit by bit; for two tensors of one shape r of their sum, difference, product or quotient is bit by bit that of r(x) and r(y). A program may slice or reshape before or after its elementwise functions without changing any result.", "quantifier": "all shapes, elements, arguments the functions accept, chains of any length, contents of recycled memory, build profiles", "why_tests_cant": "ranges over all shapes and chains; vectorised implementations typically break it at sizes that are no multiple of the vector length", "anchors": ["prima_undine/src/functions/basic/device.rs", "prima_undine/src/functions/arithmetic/tensor.rs", "prima_undine/src/devices/naive/common.rs", "prima_undine/src/devices/naive/slice.rs", "prima_undine/src/devices/naive/transpose.rs", "prima_undine/src/devices/naive/broadcast.rs", "prima_undine/src/devices/naive/pick.rs", "prima_undine/src/devices/naive/batch_slice.rs", "prima_undine/src/devices/naive/batch_pick.rs"]}
