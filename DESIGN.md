# DESIGN: a Lean 4 model of alexnavtt/cnn_from_scratch

## Shape of the model

* `Verif/Model/*` – the model, function by function, each definition citing file and lines in /repo.
* `Verif/Spec/*` – small specifications (formulas over `Nat`-indexed functions, `Finset` sums, real analysis) that do not
  mention the model's helpers.
* `Verif/Lemmas/*` – helper lemmas.
* `Verif/Props/*` – the property theorems, named after the property (`C01_…`), with a non-vacuity `example` each.

**Outcomes.** Every C++ operation that can go wrong returns `Res α = ok a | throw e | ub | abort`. `ub` is undefined
behaviour (reading outside a `std::vector`, signed overflow of an `int` product, running an iterator off the end),
`abort` is a failed `assert`, `throw e` an exception. A theorem of the form `f … = .ok r` therefore also proves the
absence of UB, of exceptions and of assertion failures.

**Numbers.** Dimensions are C++ `int`: modelled as `Int`, with the product `x*y*z` checked against the `int` range
(overflow = `ub`). `size_t` index arithmetic is modelled modulo 2^64. Matrix entries are an arbitrary type `α` whose
operations are type-class parameters; functions keep the code's order of additions, so theorems that do not need
algebraic laws hold for floating point as well. Theorems about gradients, softmax etc. instantiate `α` with a
commutative ring / field / ℝ ("exact arithmetic"): floating-point rounding is *not* modelled there. `Spec/Rounding` describes
arithmetics that round, and C84 bounds the error of forward propagation in any of them; `Model/Double` models binary64 (round
to nearest even, subnormals, infinities, NaN; one zero, one NaN, `exp` and `tanh` correctly rounded) and is proved to be one.

**Mutation.** A function that mutates an object returns the new object. Lazy expressions are pairs (dimensions, reader);
where the expression may read the matrix being assigned, the reader takes the current contents of the target as an
argument, so the interleaving of reads and writes is that of the code.

**Threads.** The worker threads of `runBatch` and of `validate` are modelled as interleavings of steps; a schedule is an
arbitrary list of thread numbers. A step runs one thread up to its next access to something shared: taking a sample (under
the mutex), a call of one layer, storing the label in the output layer, counting a success. Four further models look
inside a layer call. `Model/Overlap` gives calls a beginning and an end, lets other threads run in between, lets a call see
its layer as of any moment in between, and lets it leave anything in its own batch slot until it ends; C76 proves that this
adds no outcome to the model with atomic calls once the fully connected layers have been used. `Model/FirstUse` cuts the
first call of a fully connected layer at its accesses to shared members (C56), `Model/Race` does the same inside training (C80).
`Model/Validate` records the accesses of a
pooling call to its slot (C73). Weak memory and torn writes are not modelled. A data race is UB in C++; where the code has
one (C52, C56, C73, C80, C95, C100) a theorem exhibits schedules that are wrong already under sequential consistency, or the race itself.

**Streams.** An input stream is the list of remaining characters plus fail/eof flags; an output stream is the text, and for
the printing of matrices (C78) also its formatting state. The text of a floating number and back is a `Codec`; the laws the
theorems need are `Codec.Lawful`, proved for IEEE binary64 and binary32 with six decimals (C42).

**Files.** A binary file is the list of its bytes, a saved model is its text. Whether a file can be opened is a parameter.

**The program.** `Model/Main` is `main()` with `Model/Feed`, `Model/Validate` and `Model/Mnist`. Random weights, `rand()`, the
number of cores, the schedules and the arithmetic are parameters over which the theorems quantify.

## Trusted base

* Lean 4.33.0's kernel; axioms at most `propext`, `Classical.choice`, `Quot.sound`. `Verif/Audit.lean` prints them for every
  theorem named in MANIFEST.json during the build.
* The reading of the C++ source recorded in the comments of `Verif/Model/*`, including the behaviour of the C++17 standard
  library (libstdc++) functions used: `std::vector`, `std::copy` (counts `last-first`), `std::transform`/`for_each`/`fill`/
  `accumulate`/`inner_product`/`max_element`/`min_element` (loop until `first==last`), `std::array::operator==` (`std::equal`),
  `std::istream` extraction, `std::ifstream::seekg`, formatted output, in the classic locale.
* The data model of x86-64 Linux: `int` 32 bits, `size_t` 64 bits, conversions modulo 2^n, IEEE floating point.

### What the model assumes or leaves out

* `assert` is enabled: CMakeLists.txt sets no build type, so `NDEBUG` is not defined.
* Memory exhaustion and stack depth: every allocation succeeds.
* Rounding, NaN and infinities, where a theorem instantiates the entries with ℝ or another field (C14, C17, C23-C28, C35-C40, C53,
  C54, C65, C67-C69). Theorems for "every arithmetic" (C01-C13, C33, C70-C73, C75, C76 and others) assume no law at all of the
  operations and hold for floating point. Where sizes are computed in `float` (C29, C50, C51, C55) binary32 is modelled exactly.
* The order in which the compiler evaluates the arguments of `matrixMultiply` and `transpose` (unspecified in C++) is a
  parameter; C16 and C38 say what each order does, C70 and what builds on it take the harmless one.
* `loadModel` calls `addKernel` with an argument too many and would not compile if instantiated; the model drops the argument.
  `SimpleMatrix::abs()` would not compile either and is not modelled.
* An unwritten variable is indeterminate; its use counts as undefined behaviour (MNISTReader, `unserialize`, `Dim`).
* `lim`, the largest file offset the system accepts, is a parameter below 2^63 (C59).
* In `Model/Train` the samples of an epoch are a list; `Model/Feed` is the same with a data source, and C81 relates the two.
* The conversion of recorded activations to `float` is a parameter (`Env.toFloat`), the identity where ℝ is used (`Env.Exact`).
* The texts of floating-point numbers, of times and of file names printed on the console are parameters (`Console.Texts`); the terminal
  (`Spec/Terminal`) has lines of any length. The timers (`cpp_timer`) are not modelled.

### Files of /repo

| file | model | left out |
| --- | --- | --- |
| Matrix/dim.h | Dim, DimN | – |
| Matrix/MatrixBase.h, SimpleMatrix.h/.tpp | Matrix, Serialize, Show | `abs()` |
| Matrix/MatrixIterator.h, SubMatrixView.h/.tpp | Dim, Matrix | – |
| Matrix/MatrixMath.h | Expr, Matrix | – |
| Layers/*.h, src/Layers/*.cpp | Layers, Serialize, FirstUse, Double, Binary64 | rounding is abstract (C84, C98, C99: relative and absolute errors); binary64 in the examples rounds ties to even |
| ModelDescription.h/.tpp, DataGenerator.h | Network, Train, Feed, Accuracy, Overlap, Race, Serialize, Console | – |
| Serialization.h | Stream, Serialize | – |
| MNISTReader.h/.cpp | Mnist, Console | – |
| imageUtil.h, LoadingBar.h | Display, Console, Nearest | integer images (not instantiated) |
| main.cpp | Mnist, Validate, Main, Console, Debug | – |
| test/*.cpp | Verif/Tests | sigmoid and tanh (they need exponentials), random entries |
| timerConfig, rvalue_detection.cpp, scripts/ | – | not modelled |

### Checking the model against the project's tests

`Verif/Tests/Matrix` and `Verif/Tests/Layers` transcribe the project's unit tests (all 36 of MatrixTest, all of ForwardPassTest and
BackwardPassTest, the rational activations of ModelLayerTest) into calls of model functions; Lean evaluates each during the build.
All give the result the authors expect. They are tests that the model reads the code rightly, not proofs of properties, and no
claim in MANIFEST.json rests on them.

## What turned out to be false of the code

Each has a negation theorem with a concrete witness; most have a general theorem saying when it happens.

* Matrices: `setEntries` with two negative dimensions (C02); iteration of a matrix with x*y = 0 < z (C04); negative starts and indices of views (C08, C10); assignments that read their
  target (C13); operations on temporaries (C16); convolution with a stride (C18); `dot` of fractional and `mean` of negative entries (C19,
  C21); comparison of `dim2` (C77); printing to other streams than `std::cout` (C78).
* Layers: gradients of SIGMOID, TANGENT, LEAKY_RELU (C24); loss and its gradient differ (C28); sizes in `float` from 2^24 on (C29, C50,
  C51, C55); undersized inputs (C32, C34); non-square convolutions behind the first layer (C36); input shape of fully connected
  layers (C38).
* Numbers: overflow gives NaN probabilities and a wrong label (C85), and in training NaN parameters for ever (C97).
* Saving: empty matrices (C43), strides (C45), unused layers and input shapes (C46), activations (C47, C48, C75), labels with blanks (C48),
  missing and unwritable files reported as success (C49), the shipped file (C66), files cut off between two layers or among the labels (C96).
* Training: labels mixed between threads (C52), a data race on the label with two threads or more (C95), short batches (C54), first use by several threads (C56, C80), unknown labels (C58), an exception for a sample ends the program (C86), no threads or a batch size of 0 (C89), small
  steps that raise the loss with SIGMOID (C91), learning the same label for all samples with several threads (C92), results that
  depend on the schedule even with the right labels (C101).
* Program: reader stuck after a bad index (C59), record 0 never used (C61), constant images (C63), the full progress bar (C64), its percentage (C88), pooling in
  `validate` (C73), `rand() == RAND_MAX` (C74).

## Per property: what is modelled and how it is proved
* **C01** – Model `Matrix.read/write/getIndex` (mod 2^64). Proof: mixed-radix arithmetic on Nat.
* **C02** – Model the triple loop of `setEntries`. Invariant over the loop counter. With negative dimensions count the values used:
  the loops take more steps than there are values.
* **C03** – Model `DimIterator.next`, begin/end and the `!=` loop with fuel; prove the loop equals a fold over `List.range (X*Y*Z)`.
* **C04** – Same model; for x*y=0<z the loop dereferences outside: negation theorem, partial theorem for the shapes where it holds (characterised exactly).
* **C05** – Direct model of resize/reshape on the value list.
* **C06** – Model of copy/move of `Dim` (memset) and of the vector; converting constructor via the transform loop.
* **C07** – Model of the two view constructors with their checks; `slices`.
* **C08** – Violated by negative start: negation witness + partial for start >= 0.
* **C09** – Loop invariant over the iteration order for fill/copy/op-assign through a view.
* **C10** – Violated by negative index: negation witness + partial.
* **C11** – Deep expression datatype interpreted by the model's expression combinators; induction over the expression.
* **C12** – Readers parameterised by the current target; loop invariant 'prefix new, suffix old'.
* **C13** – Violated: witnesses (transpose into itself, overlapping views, `M /= M(0,0,0)`); partial = non-aliasing expressions.
* **C14** – Loop of `getMultipliedIndex` as a fold, equals a Finset sum; algebraic laws by sum manipulation.
* **C15** – Pointwise.
* **C16** – Value categories modelled: a moved-from operand has zeroed dims; argument order is a parameter. Violated: witnesses; partial for lvalues / right-to-left order.
* **C17** – Nested loops as folds, Finset double sum.
* **C18** – Violated for stride >= 2: witness of ub; partial: stride 1.
* **C19** – Accumulator is `int`: violated for fractional entries; partial for integer entries (int range guard).
* **C20** – Folds over the iteration order; first extremum by induction.
* **C21** – Violated for negative sums (conversion to size_t); partial for non-negative sums.
* **C22** – Loop with early exit.
* **C23** – Pointwise + Mathlib real analysis.
* **C24** – Violated for SIGMOID, TANGENT (gradient is evaluated at the output) and, by the constant 0.1f vs 0.1, LEAKY_RELU; partial for RELU, LINEAR.
* **C25** – Real exp; sum positivity, shift invariance.
* **C26** – HasDerivAt of log-sum-exp.
* **C27** – Real.logb 2 with the constant eps.
* **C28** – Violated (log2 and eps): witness; partial: proportional to derivative of natural-log loss.
* **C29** – Exact ceiling of a rational, int arithmetic.
* **C30** – Loop invariant, argmax lemma of C20.
* **C31** – Fold with scatter-add; sums.
* **C32** – Case analysis on the sizes.
* **C33** – Three nested loops over slices; loop invariants; Finset sums.
* **C34** – Violated when input is exactly one smaller (ub) ; partial otherwise.
* **C35** – Adjoint identity by Finset sum exchange.
* **C36** – Adjoint identity for square outputs; violated for non-square (throws): witness.
* **C37** – State machine over inputs; induction over histories.
* **C38** – Adjoint identities.
* **C39** – Fold over stored gradients; permutation invariance.
* **C40** – Norm computation over ℝ with the draws as a parameter.
* **C41** – Character-level model of `<<`/`>>` for int, label reading, `ignore`.
* **C42** – Character-level model; entries abstracted by a codec (six-decimal text); loop induction over rows.
* **C43** – Violated for zero dimensions: witnesses.
* **C44** – Composition of C41/C42.
* **C45** – Violated (stride not written): witness; partial: stride = size; exact characterisation of what is loaded.
* **C46** – Violated (uninitialised layer throws; input shape lost so backward throws): witnesses; partial: forward behaviour.
* **C47** – Violated (function pointers not updated): witness; partial: receiver already has the function; names round trip.
* **C48** – Violated (activation layers dropped, stride, label truncation): witnesses; partial for the layer kinds handled. Note: `loadModel` as written does not compile when instantiated (`addKernel` called with three arguments); the model drops the extra argument.
* **C49** – Violated: missing file loads as true; partial: malformed layer headers give false.
* **C50** – Arithmetic of ceilings.
* **C51** – Interleaving state machine, invariant over all schedules.
* **C52** – Violated with two threads: schedule witness; partial: one thread, or all labels equal.
* **C53** – Permutation invariance of the gradient sum + C51.
* **C54** – Violated (stale gradients / exception on a short first batch): witnesses; partial: full batches. What each slot contains after a batch, and which terms
  each entry of the update adds up, needs no laws of arithmetic (`Lemmas/SlotUpdate`), so it holds for rounded numbers, infinities and NaN too.
* **C55** – Ceil arithmetic; float rounding modelled as a parameter with the binary32 properties.
* **C56** – Violated: schedule witness; partial: sequential / already initialised.
* **C57** – Fold over layers. The label in any arithmetic by `Lemmas/Scan` (`Props/LabelScan`).
* **C58** – Violated (reads past the end before throwing): ub witness; partial: known labels.
* **C59** – Byte-level file model, state machine.
* **C60** – Arithmetic over ℚ.
* **C61** – State machine over reader calls.
* **C62** – State machine over add calls; decimal numerals are injective.
* **C63** – Rational arithmetic of the code computation; constant images divide by zero (reported).
* **C64** – Rational arithmetic.
* **C65** – Composition of the adjoint theorems / chain rule; started after the layers are done.
* **C66** – Violated: the file has an obsolete line after `Kernel`; theorem: every file with that header is rejected.
* **C67** – Composition of C53 and C65: a descent specification over ℝ (`Spec/Descent`) and an induction over batches and epochs.
* **C68** – The same with arbitrary assignments of labels within a batch, so for all schedules.
* **C69** – From the `add…` calls to the trained network; the first use of the fully connected layers inside the run.
* **C70** – A shape invariant (`Spec/Safe`) kept by every step of every schedule; no arithmetic law.
* **C71** – `main()` as a composition of C59-C61, C70, C72, C74; existence of ending schedules separately.
* **C72** – Invariant over all schedules of `validate`: images handed out, in progress, counted.
* **C73** – Access log of the pooling layer; two conflicting accesses not ordered by a mutex.
* **C74** – Rounding of `rand()/RAND_MAX*size` with relative error 2^-53; the witness is RAND_MAX.
* **C75** – C71 and the text model of C48 applied to the network of `main()`.
* **C76** – Simulation in both directions between the overlapping and the atomic model; overlapping calls work on different slots.
  `Props/OverlapDescent` carries C53, C68, C79, C82 and C83 over to overlapping calls.
* **C77** – List loops of `Dim<N>` for every N against mixed-radix numbering; unwritten components are `none`.
* **C78** – Two streams with formatting state; the loops append cells, so the text is the layout of the specification.
* **C79** – Invariant relating the successes counted so far to the model at the beginning of the batch; answers are independent of
  slots and labels stored (`Like`), and unused layers can be thought of as made ready before (`Warm`).
* **C80** – Training with the calls of `Model/FirstUse` in place of atomic ones. Simulation by the atomic model for used layers and for
  one thread; for every network with a fully connected layer a schedule that ends in `std::terminate` is built.
* **C81** – A source's state is related to the list of samples it still has to serve (`Serves`, `Feeds`); each step of training from
  the source is matched by the same step of training on the list.
* **C82** – What the slots hold is described by remembered pairs (network, sample), independent of the program (`Spec/Stale`). Invariant
  `Recalls`: slot k contains the partial derivatives of pair k. A batch changes the pairs of the slots it fills (`fill_slots`), the
  update is `memStep`; then induction over batches and epochs, once for one thread (the pairs are a function) and once for any.
* **C83** – `Spec/Surrogate` defines, for a network and an input, the network of `gate` layers (affine functions of one entry) that
  back-propagation differentiates. The adjoint of each layer object is proved against its surrogate, and where the layer is
  differentiable against the layer itself (`Stands`); all lemmas about passes, slots and training are stated for either.
* **C84** – `Floating` assumes of an arithmetic that each operation has relative error u and absolute error η below Ω. Errors are
  carried layer by layer (`NetLayer.err`): sums by induction over the terms, sigmoid and tanh by their Lipschitz constants, MAX
  and MIN by the error of the window, softmax by the ratio `exp (2 ε)`. `Double.floating` proves the assumption of binary64.
* **C85** – Below overflow by C84. The violation is computed: infinity minus infinity in softmax.
* **C86** – `Res.Throws S` (only exceptions in `S`) is carried through `train`; steps of threads go through `terminate`. The program
  end is built by running the first thread alone.
* **C87** – By contradiction with an ultraproduct. Assume that the claim fails for δ = 1/(k+1), k = 0, 1, …, and take sequences of numbers
  of these arithmetics that are finite and bounded, along an ultrafilter (`Family.Lim`): an arithmetic without rounding whose
  comparisons are those of almost all members (`Ideal`). Running the program is natural under homomorphisms (`Lemmas/Map*`), so the run
  in the limit, which ends by C70, is the run of almost all members; contradiction. Where no numbers are compared, the limit run is
  mapped on to the real one in the same way (`follow_val`).
* **C88** – `Spec/Terminal` interprets characters and control sequences; `Prints s ls` (a text adds these lines to a terminal at the start of
  a line and leaves it so) is closed under concatenation, so the program is composed from C71 and lemmas for bars, rows and
  lines. The number of filled columns and the percentage need that the roundings are monotone and keep numbers of 24 resp. 53
  digits; both are proved of rounding to nearest (`Lemmas/Nearest`).
* **C89** – `Model.room` is the allocation of batch slots at the start of training (`size_t` of a negative `int` exceeds `max_size`). The quotients by
  0 are infinite `float`s converted to `int`.
* **C90** – Composed from `Prints` as in C88, the norms by C20.
* **C91** – The loss is differentiated along all parameters at once: `LayerJoint` says that a layer is differentiable in its input and its
  parameters together with an additive derivative, and `net_total` adds the contributions of the layers. So the derivative along the step
  is minus the sum of the squares of the partial derivatives. For the violation the step is computed by C83 for a network with one SIGMOID,
  and the derivative along it is bounded from below.
* **C92** – By C83 an epoch is one gradient step. On the last layer the mean loss is that of a softmax regression on what the other layers
  give (`feature`). log-sum-exp is convex, and Hoeffding's lemma for a variable with the softmax distribution bounds its growth
  (`Lemmas/Convex`); the usual potential argument gives the rate 1/k. Separating parameters, scaled up, make the loss as small as desired,
  and a loss below log 2 divided by the number of samples leaves each sample's label a probability above 1/2. For several threads a scheduler is given that lets one chosen thread tell its
  label last (`Before`, `After` in `Lemmas/Mixed`); training is then the same descent on data with one label.
* **C93** – Each batch is a gradient step on its own mean loss (`batch_descents`, `runBatches_online`). The squared gradient is at most `R` times the loss,
  so a step changes the distance to any other parameters by at most the difference of the losses (`closer`); summed over the batches this bounds the
  losses met, and a wrong answer costs at least log 2. For the model in the end, the steps of one epoch are compared with one step along
  the sum of the gradients (`run_near`); a margin makes that gradient at least the probability of the wrong labels (`totalWrong_sq`), so an
  epoch lowers the loss by a multiple of the square of that probability (`epoch_le`).
* **C94** – For each thread a number of steps still to make, from its slot, the end of its range and the place in its loop. A step of the
  thread lowers it by one, a step of another leaves it. With a dry source it may drop to zero at once.
* **C95** – The shared state is cut into locations; `Shared.copy` puts the contents of one location of any state into another. A step commutes with copying into a location
  outside its footprint (`step_copy`), and its result is the old state with the written locations copied over (`step_writes`); both by going through the layer
  calls. Copies into different locations commute, hence so do steps without conflict. The races follow from C51 (no two threads on one slot) by going through
  the pairs of steps; to reach the race each of two threads runs alone up to its label.
* **C96** – No new model. For each reading function of a layer a lemma says what it does on a proper beginning of the text its `serialize` writes: it fails, or it
  leaves a dead stream (`Lemmas/Cut*.lean`, by induction over the numbers of a matrix and over the places of a layer). The layers before are read as in C48. Between the layers
  and among the labels the loop and `readLabels` are run on the rest of the file, which gives the cases where the end goes unnoticed.
* **C97** – `Absorbs` lists the laws of NaN that are used; binary64 has them (`C97_double`). The formulas of the layers that hold without laws of arithmetic (C33–C38) show
  where a NaN goes: through softmax everywhere, backwards through convolutions and fully connected layers everywhere, through pooling at least to one
  entry of each channel (`Lemmas/NaN*.lean`). That each slot holds what its sample gives on its own is C53; the update is a sum over the slots.
* **C98** – `Spec/GradRounding` defines, from the end of the network to its beginning, bounds on the exact derivatives (`pull`), on their errors and on the records kept
  for them, for each kind of layer. An activation or a maximum may be taken on the other side of a kink; where the values are closer to it than their error,
  the bound contains both branches (`Lemmas/GradClose`, `GradOrder`). `GradEntry` bounds the error of one entry of each formula of C33–C38, `GradLayer` of a layer,
  `GradTruth` says what the exact numbers are (chain rule, C83), `GradModel` goes through the loops of the program. `DoubleFloat` proves the
  rounding of binary64 to binary32.
* **C99** – The sums of `applyBatch` do not depend on laws of arithmetic once the order of the slots is fixed (`Lemmas/BatchOrder`, a version of C53 without a field).
  `StepRounding` bounds the rounded mean and the rounded step; `StepBatch` puts in the gradients of C98 for each slot; `StepTrain` goes on by induction over batches and epochs, with
  the invariant that the model stores some network as finite numbers. `StaleRounding` does the same for any number of images, with one more invariant:
  the slots contain the gradients of the networks and samples that used them last, as in C82.
* **C100** – The locations and footprints of C95 for the steps of `validate`; calling a layer there is a forward step of training with slot 0, so both halves of the footprint
  come from C95. The invariant is that a run keeps everything of the model but the contents of slots; races are then read off the footprints.
* **C101** – One thread: the steps of a schedule that name other threads do nothing, and a thread that has ended stays so; hence any two schedules that end give the
  same run. Orders: with a slot for each thread, let the threads enter in the order wanted and then run each to its end (`Lemmas/Reproduce`). Violation: `FullAlone`
  computes the gradients of a fully connected layer with softmax in any arithmetic; `DoubleExact` evaluates them in binary64, where 1/2 is lost beside 2^59.
  Closeness follows from C99. Small batches (`Lemmas/SmallBatch`): the slots hold the gradients of the samples in some order, and a step over `B` slots depends on the order
  only through sums of `B` values; a batch of one uses its own label because labels come from samples taken (C52). `Model/Binary64` is the type of the values a
  `double` can hold, closed under all operations; there zero is neutral and addition commutes.
* **C102** – Each of the three kinds of layers gives entry `(i, j)` as an expression in the entries of one rectangle (C33 and the law-free forms of C23, C30);
  `Lemmas/Local` carries a pair of passes through the layers with the invariant that entries agree where their rectangles do, the rectangle growing by `Field.after`.
* **C103** – `Lemmas/Scan`: the loop of `std::max_element` is a left-to-right scan, with no assumption on the comparison.
* **C104** – From C83: the derivatives for the last layer are `(probability - [true label]) * input`, whose sum over the labels is 0; induction over the batches with the
  invariant that all remembered networks end with the same layer but for parameters (`Lemmas/Balance`). Shifts (`Lemmas/Gauge`): the loss is a function of the
  differences of the last outputs, so all partial derivatives are equal, and each step commutes with the shift.
* **C105** – From C83: where the unit is off, back-propagation differentiates a network in which it is a constant, so its partial derivatives are 0; induction over the
  batches with the invariant that all remembered networks have the same row (`Lemmas/Silent`). In binary64 (C105_binary64) by following one sample: the
  unit's output is 0, RELU's derivative there is 0, so its gradients are 0 or NaN, as for C108 (`Lemmas/OffUnits`); a unit with a NaN weight is off as well, because
  comparisons with NaN are false.
* **C106** – From C83: exchanging the two units does not change the loss, so their partial derivatives are equal (`Lemmas/Twins`). In any arithmetic (C106_any)
  by following one sample through the layers: the two rows are computed by the same operations on the same numbers in the same order (`Lemmas/PlainTwins`).
* **C107** – From C83: the partial derivative for a weight is that for the bias of the unit times the number the weight is multiplied with; so each step stays within the
  span of the inputs (`Lemmas/Span`). The same lemma gives the weights behind a unit that is off (C105_outgoing_partial).
* **C105, C106, C108 with overlapping calls** – in any arithmetic from C76: the overlapping training equals one whose calls follow one another on the same images
  (`Props/PlainOverlap`, `Lemmas/Sources`).
* **C108** – No law of arithmetic but those about 0 and NaN: the gradient a sample leaves for a weight of the pixel is a number times 0, so 0 or NaN; so are the sums over
  the slots, and the update subtracts 0 or gives NaN (`Lemmas/Dark`). Slots that a short batch does not use hold gradients with the same property.
* **C109** – The size of the weights is read off the constructor; a forward pass that succeeds takes every filter out of the weights, also the one that is not there
  (`Lemmas/ManyFilters`).
* **C110** – From C48_load: what is loaded agrees to six decimals, so it has the same text (`Lemmas/Resave`); strides are not part of the text.
* **C111** – Invariant over batches and epochs, whatever the gradients are: an entry minus rate times a step is the entry or NaN (`Lemmas/Still`); the witness against equality is the one of C97 with rate 0.
* **C112** – A relation kept by every step of every thread and by the update (`Lemmas/Make`), whatever the numbers and sizes are.
* **C113** – From the update formula of C53; what a sample gives on its own does not depend on the batch size (`Lemmas/Copies`).
* **C114** – The second call of `train` only empties the batch slots, and the first batch of an epoch overwrites them (`Lemmas/Resume`); one thread puts sample k into slot k and leaves the slots behind a short batch alone (`Lemmas/InOrder`), so parameters and slots agree from epoch to epoch.
* **C115** – The batches of an epoch are run beside the same batches in the middle of a longer epoch (`Lemmas/Merge`, on top of `Lemmas/InOrder`). If all samples of a batch have one label, the label race cannot be seen (`Lemmas/OneLabel`), so C101, C113, C114 and C115 then hold for all schedules.
