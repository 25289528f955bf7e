# Formal model of prima-undine in Lean 4

## 1. Trusted base

* Lean 4.33.0 kernel (every theorem is checked by it; no `native_decide`, no `bv_decide`, no own axioms).
* Axioms used by the theorems: at most `propext`, `Classical.choice`, `Quot.sound`.
* Mathlib 4.33.0 (only its kernel-checked theorems, imported module by module).
* The faithfulness of the model to `/repo` (by reading; every definition cites file and lines).

### What is modelled
* `shape.rs`, `shape_ops.rs` (both overflow profiles), `memory_pool.rs` (sequentially and with every interleaving
  of lock sections), `tensor.rs`, `parameter.rs`, `device.rs` (asserts, registry by name, allocation),
  `devices/naive/*.rs` kernels (loop by loop, index arithmetic exact), `functions.rs`, `functions/**/{device,tensor,node}.rs`,
  `graph.rs`, `operators/*.rs`, `random.rs`, `initializers/*.rs`, `optimizer.rs`, `optimizers/*.rs`, `model.rs`, the derive macro and `contrib`.

### What is not modelled
* IEEE-754 rounding, outside of C67 and later float properties: kernels are generic in the element type and its operations (f32 values and the f64
  values used inside of logsumexp).  Theorems about data movement and order of evaluation hold for any element type without any law (so also for
  f32 with its rounding); theorems that need algebra (matmul = sum of products, gradients) are about exact semirings / the reals.
* For the float properties the element type is instantiated with binary floating point (`Round.lean`: f32 = 24 bits, f64 = 53 bits, subnormals, signed
  zeros, infinities, one NaN).  Every operation of `+ - * /` and `sqrt` is the exact result rounded to a nearest representable number (`Near`: any rule for
  ties, so the IEEE default is one of them); results beyond the largest number become infinite.  Assumed of the platform's math library (`exp`, `ln`,
  `tanh` in both formats): for C67 `Libm.Sane` (ranges and special cases), for C68 `Libm.Accurate` (absolute error), for C87 `Libm.Shrinks`, for C90 and C91 `Libm.Special` (results at 0, 1, -inf, NaN), for C92 and C93 `Libm.KeepsOrder`; all are satisfied by the library that rounds the exact
  results (`FloatIdeal.lean`).  `sin`, `cos`, `tan`, `powf`, `powi` are arbitrary functions.  NaN payloads are not distinguished.
* The Rust borrow checker (programs are only those that type-check; for C15, C16, C50, C51 what it accepts is the predicate `Life.Safe`), weak memory (threads interleave, C11 and C58; C58 shows that there are no data races on buffers, so the compiler's and hardware's guarantee for race-free programs applies), the
  samplers of `rand`/`rand_distr` (each sample sequence is arbitrary; only which arguments they refuse is modelled, NaN excluded), the file format of serde (a value is modelled by the record that is
  serialised; the codec is assumed to be lossless), the proc-macro token parsing (its output is modelled).
* The CUDA/OpenBLAS back ends, examples.  Of core::fmt and macro_rules only what C95 needs is modelled: decimal numbers, lists, literal text; arms tried in order on token sequences whose expressions are already parsed and evaluated.

## 2. Conventions

* `Res α = ok a | panic | ub`: `panic` = Rust panic (assert, index of a slice, overflow in debug builds), `ub` = a raw-pointer access
  outside the buffer.
* u32 values are `Nat`s below 2^32; checked arithmetic is explicit where the code can overflow.
* A buffer is a `List α`; a tensor's buffer may be longer than its shape's size (the pool rounds up).
* Fresh buffers contain arbitrary ("stale") data: it is an explicit argument, universally quantified in theorems.
* Loops are `loop n f s`: run `f 0`, `f 1`, …, `f (n-1)`.

## 3. Plan per property

See `properties.jsonl` for the statements.

| id | model | proof |
|---|---|---|
| C01–C04, C07 | `Shape` record with cached depth/volume, `Shape.new`, `update_dim`, … as in shape.rs | invariant `WF` preserved by every operation; iff-characterisation of panics |
| C05 | column-major offset of coordinates | induction on the number of axes; bijection |
| C06 | `shape_ops` functions | iff characterisation against a textbook spec on coordinates |
| C08 | both profiles as a parameter | agreement theorem + concrete counterexample (negation) |
| C09–C14 | pool as state machine, `calculate_shifts` on bit vectors, poisoned locks, lock-section interleavings | invariants over arbitrary histories/interleavings |
| C15, C16 | heap of blocks, pool, tensors with handle and reference mark; abstract machine of independent arrays | simulation relation; negation with concrete history for `replace` of a view |
| C50, C51 | same machine | negations: a view can be written, a view of a null tensor leaks the buffer it gets |
| C17 | records and host tensors | round trip |
| C18, C19 | kernels with explicit `ub` | every device function returns `ok`/`panic`, never `ub`; result independent of stale buffer |
| C20–C28 | kernels | flat-index theorem by loop invariant, then coordinates through C05 |
| C29 | backward kernels | gx' = gx + contributions |
| C30–C35 | graph of operators in creation order, BFS, priority queue with arbitrary tie-breaking; what an operator has written before it panics (`Oper.left`) | topological-order invariant; for C35 the parts of a `split` are accepted all or none; negation for `InputOwner` |
| C36 | graphs of library operators over the reals; `evalR` evaluates a graph on arrays, `NodeOp.real` the textbook meaning of an operator (AdSpec) | per operator: forward, derivative, backward adjoint (`LocalAD`); then induction over the order of `backward` with the sum of inner products of gradients and variations as invariant |
| C37, C48, C49 | reals (Mathlib calculus) | `HasDerivAt` |
| C38, C39 | Tensor and Node API as dispatch to device functions | equality; negations with witnesses |
| C40–C45 | optimizers, parameters, models | loop invariants, induction over steps |
| C46 | contrib on tensors and nodes (`TF.*`, `NF.*` in Contrib, ContribNode) | calculus of `Yields` / `NYields` (what a call evaluates to as an array) composed along the source; over the reals finite sums; negation for `Node::layer_normalization` |
| C54 | programs (`Prog`) of calls that make nodes, `forward`, `backward` on the graph of library operators; after a panic in `backward` any gradients of the right shapes (`Disturbed`) | invariant `GFine`: every value, gradient and parameter gradient in the graph has the shape of its operator and a buffer large enough; one lemma per operator for forward and backward; negation with a witness for batch_pick of several ids |
| C55 | programs (`Has`) over tensors, graphs (library functions and direct `Node::create` of every library operator), parameters and optimizers together, with caught panics | induction over the program with one invariant per kind of thing (`Fine`, `GFine`, `Param.Sound`); every optimizer step keeps the shapes of value, gradient and statistics equal; negation with a witness for a statistic of another shape |
| C56 | the four kernel tables of a device as maps from strings (`DevTable`), the registrations of `Naive::new` in order, the device functions looking their kernels up by name (`Registry.lean`) | evaluation of the lookups per function, induction over the registrations, panics propagated through the checks; negations with witnesses |
| C57 | C36's graphs and C40's optimizer together; the graph gives the gradients it borrowed back to the parameters (`giveBack`) | composition of C36 and C40; sum over leaves restricted to parameters; sign of the derivative along the step; induction over iterations |
| C58 | `Thd.Step`: threads interleave single element accesses and the lock operations of C11 over one heap; programs are trees of accesses (what follows may depend on the values read), with read-only sharing and channels; `straight`: forward functions as such programs | invariant: every tensor's handle is owned by the program (C11) and distinct tensors have distinct handles; simulation by the machine of independent arrays; weakest preconditions for straight-line programs |
| C59 | the kernels' shared `Mutex<Randomizer>` as a poison flag (`RandomLock.lean`); a history of calls with caught panics | induction over the history; negation with a witness |
| C60 | the machine of C15 with unwinding: `Life.crash` is what a panicking call has done before its panic (assigned fields, dropped arguments, an arbitrary partly written destination) | the invariant of C15 is kept by every crash; then C15's simulation and pool theorems |
| C61 | graph.rs once more, with the borrow flags of its `RefCell`s (`Borrow.lean`), which the program also changes by keeping `Ref`s | no flag is ever -1 between calls; an operator's arguments are earlier operators, so its borrows differ; equality of the loops with and without flags, and panic at the first kept cell |
| C62 | the `Rc`s of graph.rs (`Owner.lean`): strong counts, clones of `create`, `forward` and `backward`, recursive drop of an operator's arguments and results; a box with count 0 is dangling | count = references held by the program + by living boxes + pending drops, kept through the recursion; living = reachable by induction on the order of creation; counts are determined by the held references, so a traversal restores them |
| C63 | C57's iterations with every optimizer (`Graph.Training`) | C57's gradients and the update theorems C40, C41 composed; derivative of the sum of squares; the clipping factor computed from the norms; induction over the iterations |
| C64 | `Derive.deriveModel` on the declaration as `syn` hands it over (the token parser is not modelled), the generated block as data, `Derive.refs`/`refsMut` run it on values | induction on attribute lists, generics and values; agreement with `ModelTree` of C45 |
| C65 | `Life.runR`: the calls of C15 plus `new_handle`, `drop_handle` and a store through `Tensor::handle()`; a pointer variable is a record of device and handle | disciplined programs simulate programs of C15 (a raw handle is a tensor nobody names); the negations are computed from any reachable state |
| C66 | `NF.Reads` (functions/basic/node.rs 7-40: evaluate, borrow the value, read the tensor) on the programs of C54 | every operator's results are `Graph.fin` (the fixed result of the expression, panics included), an invariant of all histories; `fin` is the expression's value or unreadable |
| C67 | the functions of C27/C48 with the element type `Fl f32` (wide type `Fl f64`): `floatFlt` | interval lemmas for each rounded operation (rounding is monotone and fixes representable numbers); induction over the reduced axis; the negations are computed from `0 * ∞` |
| C68 | as C67 | half-unit bound of one rounding, Lipschitz bounds of exp, log and log-sum-exp, induction over the reduced axis |
| C69 | as C67; the kernels `sum`, `batch_sum`, `matmul` (blocks of 8 accumulators) | relative error `(1+2^-24)^k - 1` tracked through the folds by induction; whole numbers up to 2^24 are on the grid |
| C70 | as C67; the optimizer model of C40 over f32 | monotonicity of rounding for the factor in [0,1]; C69-style fold bound of the squared norm; overflow/underflow witnesses proved for all states |
| C71 | as C67; comparisons of floats as comparisons of places on the extended real line, false with NaN | induction over the scan with an invariant for the elements that compare; `argsort` through a key into a linear order; modelling assumption: a comparison sort of two or more elements compares each of them at least once, so a NaN makes the comparison closure panic |
| C72 | as C67; the element functions of the kernels (C20, C29) over f32 | exactness of products with 0, 1 and -1; monotonicity of rounding; three rounding errors for the bound of the sigmoid gradient; negations at zeros and infinities |
| C73 | as C70; runs of updates with arbitrary gradients in between | rounding is monotone and keeps grid points (direction); three rounding errors; gap between neighbouring floats (a step below a quarter of it is absorbed); induction over the run |
| C74 | graph.rs as in C30-C32 (any tensor type, heap order of equal depths left open); the limit with library operators over f32 | iterations of operators without common arguments can be swapped (state update on disjoint gradients); two depth-sorted orders differ by such swaps; recorded depth = longest chain, by induction on the history; the limit by kernel evaluation of the symbolic graph (tactic `kernel_rfl` only builds `Eq.refl`, which the kernel checks) and exact f32 sums |
| C75 | contrib/tensor.rs as in C46 over IEEE f32 | C46 gives the formulas; partial sums stay on multiples of `2^103`; a computed sum of squares is at least each rounded square (or infinite), so the denominator bounds every shift by `√n` up to six roundings; monotonicity of rounding gives the order; accuracy of the mean from C69 and one division; limits by following the special values |
| C76 | straight-line programs over the functions on tensors (`BatchSpec.lean`); the forward kernels, shape functions and contrib functions | each device function commutes with choosing batches (`rows_commute`: the result for row `k` is a function of rows `σ k` of the arguments, and the output shape changes in its batch only); relational reasoning (`Follows`) lifts this through the compositions in tensor.rs and contrib, induction over the program; real numbers give the counterexample for `batch_normalization` |
| C77 | graphs of library operators (as in C36), the graph of a minibatch beside the graphs of its samples (`SampleSpec.lean`) | every operator's real function restricted to sample `b` is the operator of the sample (`NodeOp.splits`), induction over the graph gives values and shapes; so the objective of the minibatch is `k` times the sum of the samples' objectives, at every point; C36 says both sides' gradients are derivatives of these, and derivatives are unique.  Assumed: the hypotheses of C36 for all the graphs (`Ready`) |
| C78 | sequences of graphs over the same parameters (as in C57, with any gradients at the start), the optimizers | C36 with arbitrary initial gradients gives one pass (`C78_pass`); induction over the passes; gradients of sums are sums of gradients and are unique; the losses of the samples sum to the loss of the minibatch at every parameter value (C77's lemma), so both ways add the same |
| C79 | samples as random variables on any probability space (`RandomLaw.lean`: the laws that the documentation of `rand` promises, as hypotheses), dropout, random tensors, initializers | C46/C52 for each course of chance; moments of the laws by integration; offsets of different positions differ, so independence of the samples is independence of the elements; the layer by variances of independent sums. Samplers with these laws exist (`exists_coinLaw` …), so the hypotheses can be met |
| C80 | training runs as in C63, with SGD; `LipschitzGradient`, `ConvexLoss` (`Converge.lean`) are conditions on the loss as a function of the parameters' values | C57 gives the iterates; the classical one-step inequalities (quadratic upper bound by the mean value theorem, tangent inequality, expansion of the distance) and induction over the run; the squared distance loss meets all hypotheses in runs of every length |
| C81 | training runs as in C63 with SGD, weight decay and clipping; `regularised` (C63), `norm2` (`Converge2.lean`) | C63_sgd_step and induction over the run give the iterates; regularising adds `l2` to the Lipschitz constant and a quadratic term to the tangent inequality; triangle inequality for the movement; the squared distance loss meets all hypotheses in runs of every length |
| C82 | training runs as in C63 with MomentumSGD | C63_momentum_run gives the iterates; the potential argument for the heavy-ball method (`Converge3.lean`); an inductive bound of the momentum; the squared distance loss meets the hypotheses in runs of every length |
| C83 | training runs as in C63 with Adam | C63_adam_run gives the recurrences; induction: corrected statistics are averages, and `m1^2 <= S m2` with the fixed point `S`; Bernoulli's inequality for the corrections |
| C84 | pairs of training runs as in C63, with any optimizer, decay and clipping; `Opt.scaled` are the settings for a scaled loss | a simulation relation between the contents of the parameters of the two runs (gradients and statistics scaled), kept by decay, clipping and every rule; gradients are unique, so the gradient of the scaled loss is the scaled gradient |
| C85 | programs (`Calc`) of the tensor functions, run over f32 (`Ieee`), over the reals and over bounds (`boundFlt`, a third instance of the arithmetic) | a ternary relational interpretation (parametricity) of every kernel and tensor function: if the three arithmetics are related operation by operation, so are the results; the relation for C85 is the running error bound, with rounding lemmas from `FloatSum`. Libm's tanh enters with an absolute error as in C68 |
| C86 | the same programs with `max`, over f32, the reals and magnitudes (`wholeFlt`) | the same parametricity theorem with the relation: exact whole number within the magnitude; f32 represents all whole numbers up to 2^24 |
| C87 | runs of `updateParameters` with Adam over f32 (`Ieee`) as in C73; powf enters as `Libm.Shrinks` (met by the library that rounds exact powers) | invariant of a run (first moment within 2^100, second moment not negative) by induction, with monotonicity of rounding; infinity is absorbing for the second moment; examples construct runs of every length |
| C88 | runs of `updateParameters` over f32 as in C73 and C87, with every optimizer kind, weight decay and clipping; the gradient an update uses is `PArr.used` (after decay and clipping) | one NaN in a sum of squares makes the norm NaN and comparisons with NaN false; induction over the iterations; two runs side by side for the independence; interval arithmetic for the momentum |
| C89 | `FnCall`, `runFns` (FlowSpec): programs of all tensor functions but the random ones and `min`; marks = the same program over `flowFlt` (Booleans, every operation is "or") | parametricity (`Par2`, `runFns_three`): a relation between three types of numbers respected by the functions on elements is respected by programs; instances "equal unless marked", "union of marks" and "any numbers" |
| C90 | the f32 instance of `logsumexp`, `lnSoftmax`, `softmax`, both cross entropies and `NodeOp.bw (.logsumexp _)`; `Libm.Special`: values of exp and ln at NaN, -∞, ±0, 1 (met by `Libm.ideal`) | the kernel's loop as a fold over the list of elements of the axis (`axisOf`); case analysis of one step, induction over the list: trichotomy NaN / +∞ / finite, and a simulation with the list of unmasked elements up to the sign of zero |
| C91 | `NodeOp.bw` of logsumexp and the two cross entropies over f32, logits as in C90 (`LogitAxis`) | interval lemmas for rounded products and sums on top of C90's bounds for `softmax`; `C29_pick` for the second update of the sparse operator |
| C92 | `TF.softmax`, `TF.lnSoftmax`, `TF.sigmoid`, the constant operations over f32 | monotonicity of `Near` lifted to `Fl.round`, `Fl.add`, `Fl.mul`, `Fl.div`, `Fl.sqrt` in the order with infinities, by induction through the folds of `sum`, `batch_sum`, `matmul`; hypothesis `Libm.KeepsOrder` on `exp`/`tanh`, met by the exactly rounded ones |
| C93 | `TF.argmax` of logits and of `TF.softmax`/`TF.lnSoftmax` of them, f32 | C92's order theorem with C71's characterisation of `argmax` (first of the greatest) |
| C94 | the constant, unary and binary functions over f32 | rounding a representable number changes nothing, case analysis on special values |
| C95 | `Shape.debugText` as a list of characters, `shapeMacro` on token sequences with the arms of macros.rs (`ShapeText.lean`) | decimal numbers end at the first other character, so the text parses uniquely (induction on the dims); soundness and completeness of the matchers by induction on the tokens |
| C96 | matmul, slice, transpose, `+`, `*` as in C20, C24–C26 | both sides evaluated with C24–C26 to the same sum in blocks of 8 and the same shape; only commutativity of one rounded product is used |
| C97 | the functions of C20, C23, C25–C28, C53; `Rearranges`: result element = argument element at a fixed valid place, `Elementwise`: one function of an element everywhere | each function is shown to be one or the other with C20–C28, C53; the exchange then follows by evaluating both orders |
| C53 | `TF.reshape`, `TF.flatten`, `Tensor.updateShape` | positions of storage (`Shape.offset`) |
| C52 | `Rng` = arbitrary sample sequences, `Init.apply`, `Dev.newParameter` (Random) | loop invariant of the fill kernel, then composition |
| C47 | device ids | panic before kernel |
