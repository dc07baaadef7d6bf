{"id": "C01", "title": "Matrix indexing is an exact bijection", "statement": "For a matrix built with positive dimensions (X,Y,Z), reading M(x,y,z) at an in-range index never leaves the storage, two different in-range indices never address the same entry, every storage slot is addressed by exactly one index, and writing M(x,y,z)=v changes the value read at (x,y,z) to v and the value read at every other in-range index not at all.", "quantifier": "all dimensions, all in-range index pairs, all contents and written values", "why_tests_cant": "A unit test fixes a few shapes and literals; the claim ranges over all shapes, contents and indices.", "anchors": ["include/cnn_from_scratch/Matrix/SimpleMatrix.h: SimpleMatrix::operator(), getIndex", "src/SimpleMatrix.tpp: getIndex, operator()", "include/cnn_from_scratch/Matrix/dim.h: Dim::getFlatIdx"]}
{"id": "C02", "title": "setEntries fills in reading order", "statement": "setEntries(v) (and the constructor taking a vector) with v.size()==size() makes M(row,col,layer) read v[layer*X*Y + row*Y + col]; with any other length it throws MatrixSizeException and no entry changes. Raw vector assignment M = v instead stores v in column-major order, with the same length check.", "quantifier": "all dimensions, all vectors of matching and of non-matching length", "why_tests_cant": "A unit test fixes a few shapes and literals; the claim ranges over all shapes, contents and indices.", "anchors": ["src/SimpleMatrix.tpp: setEntries, operator=(std::vector<T>&&), SimpleMatrix(dim3, std::vector<T>&&)"]}
{"id": "C03", "title": "Iteration visits every entry once, in storage order", "statement": "For a matrix (or view, or lazy expression) with positive dimensions, the loop from begin() to end() terminates, performs exactly size() steps, the n-th step dereferences the entry with flat index n and reports the 3-d index that addresses that entry, no index is visited twice, and end()-begin()==size().", "quantifier": "all positive dimensions (unbounded), all steps of the loop", "why_tests_cant": "A unit test fixes a few shapes and literals; the claim ranges over all shapes, contents and indices.", "anchors": ["include/cnn_from_scratch/Matrix/dim.h: DimIterator::operator++", "include/cnn_from_scratch/Matrix/MatrixIterator.h: MatrixIterator", "include/cnn_from_scratch/Matrix/SubMatrixView.h: begin, end"]}
{"id": "C04", "title": "Iterating any constructible matrix stays inside its storage", "statement": "A range-for over any matrix that the constructors accept dereferences only existing entries, so looping over an empty matrix does nothing.", "quantifier": "all dimensions accepted by the constructors, including zero in any position", "why_tests_cant": "Tests only size empty matrices, they never iterate them.", "anchors": ["include/cnn_from_scratch/Matrix/dim.h: DimIterator::operator++", "include/cnn_from_scratch/Matrix/SimpleMatrix.h: begin, end"]}
{"id": "C05", "title": "reshape and resize keep the stored sequence", "statement": "reshape to dimensions with the same product keeps every flat entry (operator[]) and changes only the dimensions; with a different product it throws MatrixTransformException and changes nothing. resize keeps the first min(old,new) flat entries and zero-fills the rest.", "quantifier": "all matrices and all target dimensions", "why_tests_cant": "A unit test fixes a few shapes and literals; the claim ranges over all shapes, contents and indices.", "anchors": ["src/SimpleMatrix.tpp: resize, reshape"]}
{"id": "C06", "title": "Copy is exact, move transfers and empties", "statement": "Copy construction/assignment gives a matrix equal in dimensions and entries; move construction/assignment gives the destination the source's dimensions and entries and leaves the source as a well-formed empty 0x0x0 matrix. Converting construction from any matrix-like value gives the same dimensions and each entry converted.", "quantifier": "all matrices, all element conversions", "why_tests_cant": "A unit test fixes a few shapes and literals; the claim ranges over all shapes, contents and indices.", "anchors": ["include/cnn_from_scratch/Matrix/SimpleMatrix.h: constructors, operator=", "include/cnn_from_scratch/Matrix/dim.h: Dim(Dim&&), operator=(Dim&&)", "src/SimpleMatrix.tpp: SimpleMatrix(MatrixType&&)"]}
{"id": "C07", "title": "Views are windows onto the parent", "statement": "subMatView(start,dim) with non-negative start succeeds exactly when start+dim fits in the parent in each axis and otherwise throws MatrixSizeException; reading or writing view(idx) is reading or writing parent(start+idx); a view of a view addresses the sum of the offsets and is accepted only if it fits in the outer view; slice(k)/slices(k,n) are the k-th (k..k+n-1-th) layers.", "quantifier": "all parents, start/dim pairs, nesting and in-range indices", "why_tests_cant": "A unit test fixes a few shapes and literals; the claim ranges over all shapes, contents and indices.", "anchors": ["include/cnn_from_scratch/Matrix/SubMatrixView.h: SubMatrixView", "src/SubMatrixView.tpp: operator(), slices, slice", "src/SimpleMatrix.tpp: subMatView, slices"]}
{"id": "C08", "title": "View creation rejects every box that is not inside the parent", "statement": "Creating a view from any start and size either yields a view all of whose entries lie in the parent or throws MatrixSizeException.", "quantifier": "all start/dim integer triples, negative included", "why_tests_cant": "Tests never use a negative start.", "anchors": ["include/cnn_from_scratch/Matrix/SubMatrixView.h: SubMatrixView(MatrixType&, dim3, dim3)"]}
{"id": "C09", "title": "Assigning to a view writes the box and nothing else", "statement": "After view = scalar every entry in the box is the scalar; after view = M2 (equal dimensions, not aliasing) view(i,j,k)==M2(i,j,k); in both cases every parent entry outside the box is unchanged. With unequal dimensions MatrixSizeException is thrown and nothing changes. The same holds for +=, -=, *=, /= applied to a view.", "quantifier": "all parents, boxes, right-hand sides", "why_tests_cant": "A unit test fixes a few shapes and literals; the claim ranges over all shapes, contents and indices.", "anchors": ["src/SubMatrixView.tpp: operator=", "include/cnn_from_scratch/Matrix/MatrixMath.h: operator+=, operator-=, operator*=, operator/="]}
{"id": "C10", "title": "Checked view access reports every out-of-range index", "statement": "view.at(idx) returns the entry for an index inside the view and throws std::out_of_range for every index outside it.", "quantifier": "all views and all integer index triples", "why_tests_cant": "Tests never call at with a negative index.", "anchors": ["src/SubMatrixView.tpp: at"]}
{"id": "C11", "title": "Element-wise expressions compute entry by entry at every shape", "statement": "M1 op M2, M op s and s op M for op in + - * / and comparisons, nested arbitrarily, have the operands' dimensions and at each index the value obtained by applying the operators to the operands' entries at that index; operands of different dimensions throw MatrixSizeException. Compound assignment M op= E gives M(i) op E(i) at every index.", "quantifier": "all shapes, all operand values, arbitrarily nested expressions", "why_tests_cant": "A unit test fixes a few shapes and literals; the claim ranges over all shapes, contents and indices.", "anchors": ["include/cnn_from_scratch/Matrix/MatrixMath.h: ElementWiseMatrixOperationResult, ScalarOperationResult, apply, checkSize"]}
{"id": "C12", "title": "Self-assignment of element-wise expressions is safe", "statement": "Assigning to A an expression that reads A only at the index being written (A = A + B, A -= s*A, view += A's own view at the same place) gives the value of the expression before the assignment.", "quantifier": "all matrices and all index-aligned expressions", "why_tests_cant": "The effect depends on the order of lazy reads and writes for every entry; a test sees one interleaving at one shape.", "anchors": ["include/cnn_from_scratch/Matrix/MatrixMath.h: operator+=", "src/SimpleMatrix.tpp: operator=(MatrixType&&)", "src/Layers/Kernel.cpp: getdLdX"]}
{"id": "C13", "title": "Assignment from an expression uses the expression's value before the assignment", "statement": "A = E gives A the value E had before the assignment for every expression E, even when E reads A at other indices (transpose, overlapping views) or the scalar operand is an entry of A.", "quantifier": "all expressions and alias patterns", "why_tests_cant": "Tests only assign from expressions that do not mention the target.", "anchors": ["src/SimpleMatrix.tpp: operator=(MatrixType&&)", "src/SubMatrixView.tpp: operator=", "include/cnn_from_scratch/Matrix/MatrixMath.h: operator/="]}
{"id": "C14", "title": "matrixMultiply is the matrix product, layer by layer", "statement": "For M1 of X*K*Z and M2 of K*Y*Z the result has dimensions (X,Y,Z) and entry (i,j,l) = sum_k M1(i,k,l)*M2(k,j,l); for any other shapes MatrixSizeException is thrown. In exact arithmetic the product is associative and distributes over +.", "quantifier": "all conformable and non-conformable shapes, all contents", "why_tests_cant": "A unit test fixes a few shapes and literals; the claim ranges over all shapes, contents and indices.", "anchors": ["include/cnn_from_scratch/Matrix/MatrixMath.h: matrixMultiply, GeneralMatrixOperationResult"]}
{"id": "C15", "title": "transpose and rotate laws", "statement": "transpose(M) of a named matrix has dimensions (Y,X,Z) and entry (i,j,k)=M(j,i,k), so transposing twice is the identity, and (AB)^T = B^T A^T. rotate<n> on a square matrix keeps the dimensions; rotate<1> four times is the identity, rotate<2> is rotate<1> twice, rotate<3> undoes rotate<1>; a non-square matrix throws MatrixTransformException.", "quantifier": "all shapes and contents", "why_tests_cant": "A unit test fixes a few shapes and literals; the claim ranges over all shapes, contents and indices.", "anchors": ["include/cnn_from_scratch/Matrix/MatrixMath.h: transpose, rotate"]}
{"id": "C16", "title": "Operations on temporaries give the same result as on named matrices", "statement": "transpose(E), matrixMultiply(E1,E2) for temporary expressions E have the same dimensions and entries as when the operands are first stored in named matrices, for every order in which the compiler evaluates function arguments.", "quantifier": "all shapes, all value categories, all argument evaluation orders", "why_tests_cant": "A test runs one compiler, which fixes one evaluation order.", "anchors": ["include/cnn_from_scratch/Matrix/MatrixMath.h: transpose, matrixMultiply, UnaryOperationResult", "include/cnn_from_scratch/Matrix/dim.h: Dim(Dim&&)"]}
{"id": "C17", "title": "convolve is the valid correlation at stride 1", "statement": "For flat M1 (X*Y) and M2 (A*B) with A<=X, B<=Y and stride (1,1) the result has dimensions (X-A+1, Y-B+1, 1), every read stays inside the operands and entry (i,j) = sum_{a,b} M1(i+a,j+b)*M2(a,b); a non-flat operand stops the program.", "quantifier": "all shapes and contents", "why_tests_cant": "A unit test fixes a few shapes and literals; the claim ranges over all shapes, contents and indices.", "anchors": ["include/cnn_from_scratch/Matrix/MatrixMath.h: convolve"]}
{"id": "C18", "title": "A convolution with stride s samples the stride-1 result", "statement": "convolve / a convolution layer with stride s>=1 yields an output of floor((X-A)/s)+1 by floor((Y-B)/s)+1 entries and reads only inside the input.", "quantifier": "all strides and shapes", "why_tests_cant": "Tests only use stride 1.", "anchors": ["include/cnn_from_scratch/Matrix/MatrixMath.h: convolve", "src/Layers/Kernel.cpp: outputSize, propagateForward"]}
{"id": "C19", "title": "dot is the sum of the products", "statement": "dot(a,b) of two vectors of equal length (row or column each) is sum_i a_i*b_i; anything else throws MatrixSizeException.", "quantifier": "all vectors over integer and floating element types", "why_tests_cant": "Tests have no dot case at all.", "anchors": ["include/cnn_from_scratch/Matrix/MatrixMath.h: dot"]}
{"id": "C20", "title": "Reductions agree with their definitions", "statement": "sum is the sum of all entries; min/max return the least/greatest entry; minIndex/maxIndex return an in-range index of the first (in storage order) least/greatest entry and the member maxIndex() returns that entry's flat index; mean is sum/size for floating entries; l2Norm is the square root of the sum of squares. All hold for matrices, views and expressions of every positive shape.", "quantifier": "all shapes and contents", "why_tests_cant": "A unit test fixes a few shapes and literals; the claim ranges over all shapes, contents and indices.", "anchors": ["include/cnn_from_scratch/Matrix/MatrixMath.h: sum, mean, min, max, minIndex, maxIndex, l2Norm", "src/SimpleMatrix.tpp: minIndex, maxIndex"]}
{"id": "C21", "title": "mean of an integer matrix is its average", "statement": "mean(M) of an integer matrix is the (truncated) quotient of the sum and the entry count, for negative sums too.", "quantifier": "all integer matrices", "why_tests_cant": "Tests have no negative-sum case.", "anchors": ["include/cnn_from_scratch/Matrix/MatrixMath.h: mean"]}
{"id": "C22", "title": "matrixEqual decides equality", "statement": "matrixEqual(A,B) is true exactly when dimensions and all entries agree (an equivalence relation); with tolerance eps it is true exactly when dimensions agree and all entries differ by at most eps.", "quantifier": "all pairs of matrices, all eps", "why_tests_cant": "A unit test fixes a few shapes and literals; the claim ranges over all shapes, contents and indices.", "anchors": ["include/cnn_from_scratch/Matrix/MatrixMath.h: matrixEqual"]}
{"id": "C23", "title": "Activation forward applies the named function entry-wise", "statement": "propagateForward keeps the dimensions and maps every entry by the selected function; in exact arithmetic RELU gives max(x,0), SIGMOID values lie strictly in (0,1) with sigmoid(-x)=1-sigmoid(x), TANGENT in (-1,1), LEAKY_RELU is x for x>=0 and 0.1f*x below; all five are monotone.", "quantifier": "all shapes and all real inputs", "why_tests_cant": "A unit test fixes a few shapes and literals; the claim ranges over all shapes, contents and indices.", "anchors": ["src/Layers/Activation.cpp: propagateForward, reluFcn, sigmoidFcn, linearFcn, tangentFcn, leakyRelyFcn"]}
{"id": "C24", "title": "Activation backward is the chain rule", "statement": "During training, the gradient an activation layer passes back is dL/dZ times the derivative of the activation function at the layer's input.", "quantifier": "all five functions, all inputs where they are differentiable, all upstream gradients", "why_tests_cant": "Tests compare the gradient formula with itself at the input, never through propagateBackward.", "anchors": ["src/Layers/Activation.cpp: propagateBackward, activationGradient", "src/ModelDescription.tpp: backwardsPropagation"]}
{"id": "C25", "title": "Softmax output is a probability vector", "statement": "For an accepted input all outputs are positive, sum to 1, keep the order of the inputs (in particular the arg-max), equal exp(x_i)/sum_j exp(x_j), and do not change when a constant is added to all inputs; an input that is not a row/column of the label count throws ModelLayerException.", "quantifier": "all label counts, all real inputs (exact arithmetic)", "why_tests_cant": "A unit test fixes a few shapes and literals; the claim ranges over all shapes, contents and indices.", "anchors": ["src/Layers/Softmax.cpp: softMax, checkSize, propagateForward"]}
{"id": "C26", "title": "Softmax backward is the cross-entropy gradient", "statement": "After assignTrueLabel(t), propagateBackward returns at every i the partial derivative with respect to input i of -ln(softmax(x)_t); its entries sum to 0; without an assigned label it throws ModelLayerException; assignTrueLabel throws out_of_range exactly for t >= label count and then keeps the old label.", "quantifier": "all label counts, labels and real inputs", "why_tests_cant": "A unit test fixes a few shapes and literals; the claim ranges over all shapes, contents and indices.", "anchors": ["src/Layers/Softmax.cpp: getdLdX, propagateBackward, assignTrueLabel"]}
{"id": "C27", "title": "Reported loss is a sane score", "statement": "lossFcn is never negative, does not increase when the true label's probability increases, is 0 exactly when that probability is at least 1-eps and is at most log2(1/eps) for any probability.", "quantifier": "all probability vectors and labels (exact arithmetic)", "why_tests_cant": "A unit test fixes a few shapes and literals; the claim ranges over all shapes, contents and indices.", "anchors": ["src/ModelDescription.tpp: lossFcn"]}
{"id": "C28", "title": "Training descends the reported loss", "statement": "The gradient with which backpropagation starts is the derivative of the loss reported by lossFcn with respect to the output layer's inputs.", "quantifier": "all inputs", "why_tests_cant": "A test would have to compare derivatives at every point.", "anchors": ["src/ModelDescription.tpp: lossFcn, backwardsPropagation", "src/Layers/Softmax.cpp: getdLdX"]}
{"id": "C29", "title": "Pooling output size and window bounds", "statement": "For input X*Y*Z with X>=pool.x, Y>=pool.y and strides >= 1 the output has dimensions (floor((X-px)/sx)+1, floor((Y-py)/sy)+1, Z), every window read lies inside the input, and no further window would fit.", "quantifier": "all input, pool and stride sizes", "why_tests_cant": "A unit test fixes a few shapes and literals; the claim ranges over all shapes, contents and indices.", "anchors": ["src/Layers/Pooling.cpp: outputSize, propagateForward"]}
{"id": "C30", "title": "Pooling forward value", "statement": "Output (i,j,k) is the maximum (MAX), minimum (MIN) or average (AVG) of the input window starting at (i*sx, j*sy, k); the input is not otherwise used.", "quantifier": "all inputs, pool and stride sizes, all three types", "why_tests_cant": "A unit test fixes a few shapes and literals; the claim ranges over all shapes, contents and indices.", "anchors": ["src/Layers/Pooling.cpp: propagateForward"]}
{"id": "C31", "title": "Pooling backward routes the gradient", "statement": "MAX/MIN: the returned gradient is zero except that each output's gradient is added to the input entry that produced it in the matching forward pass; AVG: each output's gradient is spread evenly over its window, and the result is the adjoint of the forward map. In every case the sum of the returned entries equals the sum of the incoming gradient.", "quantifier": "all inputs, gradients, sizes and batch slots", "why_tests_cant": "A unit test fixes a few shapes and literals; the claim ranges over all shapes, contents and indices.", "anchors": ["src/Layers/Pooling.cpp: getdLdX, propagateBackward, setBatchSize"]}
{"id": "C32", "title": "Pooling refuses inputs smaller than the pool", "statement": "If the input is smaller than the pool in x or y, propagateForward throws or returns an empty result and never reads outside the input; checkSize returns true exactly when the input is at least as large as the pool.", "quantifier": "all input and pool sizes", "why_tests_cant": "Tests have no undersized input.", "anchors": ["src/Layers/Pooling.cpp: checkSize, outputSize, propagateForward"]}
{"id": "C33", "title": "Convolution layer forward formula", "statement": "For an input X*Y*C with C the filter depth and X,Y at least the filter size, propagateForward of a stride-1 layer returns dimensions (X-A+1,Y-B+1,F) with entry (i,j,f) = bias_f + sum_c sum_{a,b} input(i+a,j+b,c)*W(a,b,f*C+c), reading only inside input and weights; a different depth throws ModelLayerException.", "quantifier": "all filter counts, depths, sizes and inputs", "why_tests_cant": "A unit test fixes a few shapes and literals; the claim ranges over all shapes, contents and indices.", "anchors": ["src/Layers/Kernel.cpp: propagateForward, checkSize, outputSize"]}
{"id": "C34", "title": "Convolution layer rejects inputs it cannot process", "statement": "propagateForward on an input smaller than the filter throws and has no other effect.", "quantifier": "all input and filter sizes", "why_tests_cant": "Tests have no undersized input.", "anchors": ["src/Layers/Kernel.cpp: checkSize, outputSize, propagateForward"]}
{"id": "C35", "title": "Convolution weight and bias gradients are exact", "statement": "For every loss gradient G at the output, getdLdW (and getdLdB) returns the gradient with respect to the weights (biases): for every perturbation D of the weights, sum(G * (forward with W+D - forward with W)) = sum(getdLdW * D), and likewise for biases.", "quantifier": "all layer sizes, inputs, upstream gradients, perturbations (exact arithmetic)", "why_tests_cant": "A unit test fixes a few shapes and literals; the claim ranges over all shapes, contents and indices.", "anchors": ["src/Layers/Kernel.cpp: getdLdW, getdLdB"]}
{"id": "C36", "title": "Convolution input gradient is exact for every input shape", "statement": "For every loss gradient G at the output, getdLdX returns the gradient with respect to the input: for every perturbation D of the input, sum(G * (forward(X+D) - forward(X))) = sum(getdLdX * D).", "quantifier": "all layer sizes, all (also non-square) inputs, gradients and perturbations", "why_tests_cant": "Tests have one 3x3 example.", "anchors": ["src/Layers/Kernel.cpp: getdLdX, padInput", "include/cnn_from_scratch/Matrix/MatrixMath.h: rotate"]}
{"id": "C37", "title": "Fully connected layer forward and size locking", "statement": "propagateForward returns the column W*v+b where v is the input's flat storage; the first input fixes the weight matrix to (outputs, input size), later inputs with the same entry count are accepted and with any other count throw ModelLayerException, leaving the layer unchanged.", "quantifier": "all histories of inputs, all sizes", "why_tests_cant": "A unit test fixes a few shapes and literals; the claim ranges over all shapes, contents and indices.", "anchors": ["src/Layers/ConnectedLayer.cpp: checkSize, propagateForward"]}
{"id": "C38", "title": "Fully connected gradients are exact", "statement": "For every upstream gradient G, the stored weight/bias gradients and the returned input gradient (in the input's shape) are the adjoints of the forward map: sum(G*(forward change)) = sum(gradient*perturbation) for every perturbation of weights, biases or input.", "quantifier": "all sizes, inputs, gradients, perturbations (exact arithmetic)", "why_tests_cant": "A unit test fixes a few shapes and literals; the claim ranges over all shapes, contents and indices.", "anchors": ["src/Layers/ConnectedLayer.cpp: getdLdW, getdLdX, getdLdB, propagateBackward"]}
{"id": "C39", "title": "applyBatch is one averaged gradient step", "statement": "applyBatch(lr) changes every weight w to w - lr*(average of the batch's stored gradients) and every bias likewise; in exact arithmetic the result does not depend on the order of samples in the batch; weights' and biases' dimensions never change.", "quantifier": "all batch sizes, gradients, learning rates and permutations", "why_tests_cant": "A unit test fixes a few shapes and literals; the claim ranges over all shapes, contents and indices.", "anchors": ["src/Layers/Kernel.cpp: applyBatch, setBatchSize", "src/Layers/ConnectedLayer.cpp: applyBatch, setBatchSize"]}
{"id": "C40", "title": "Initial weights are normalised", "statement": "After construction of a convolution layer and after the first input of a fully connected layer, weights and biases have l2-norm 1 for every outcome of the random generator that is not all zero (exact arithmetic).", "quantifier": "all random draws, all sizes", "why_tests_cant": "A test samples one draw.", "anchors": ["src/Layers/Kernel.cpp: Kernel::Kernel", "src/Layers/ConnectedLayer.cpp: checkSize"]}
{"id": "C41", "title": "expect inverts place", "statement": "Reading with expect<int>(label) text written by place(label,n) returns n and leaves the stream at the next line, whatever follows; a stream whose next characters differ from the label makes expect throw std::runtime_error.", "quantifier": "all integers, labels and following text", "why_tests_cant": "Quantifies over all following text and values.", "anchors": ["include/cnn_from_scratch/Serialization.h: place, expect, clearLine"]}
{"id": "C42", "title": "Matrix text round trip", "statement": "For every matrix with positive dimensions and finite entries, deserialize(serialize(M)) succeeds, restores the dimensions and every entry rounded to six decimals, and leaves the stream exactly after the matrix text; serializing the result again gives the same text.", "quantifier": "all positive dimensions, all finite entries (within the precision of six decimals), all following text", "why_tests_cant": "A unit test fixes a few shapes and literals; the claim ranges over all shapes, contents and indices.", "anchors": ["src/SimpleMatrix.tpp: serialize, deserialize"]}
{"id": "C43", "title": "Text round trip for every matrix", "statement": "The round trip of C42 also holds for matrices with a zero dimension and for default-constructed ones, so that what follows them in a file can still be read.", "quantifier": "all dimensions >= 0", "why_tests_cant": "Tests do not serialize at all.", "anchors": ["src/SimpleMatrix.tpp: serialize, deserialize", "include/cnn_from_scratch/Serialization.h: clearLine"]}
{"id": "C44", "title": "Saved convolution layers load back", "statement": "Kernel::deserialize of Kernel::serialize's text restores filter dimensions, filter count, weights and biases (to six decimals), whatever the state of the receiving layer, and leaves the stream after the layer.", "quantifier": "all layers with positive dimensions, all following text", "why_tests_cant": "A unit test fixes a few shapes and literals; the claim ranges over all shapes, contents and indices.", "anchors": ["src/Layers/Kernel.cpp: serialize, deserialize"]}
{"id": "C45", "title": "Saved pooling layers load back", "statement": "Pooling::deserialize of Pooling::serialize's text restores type, pool size and stride.", "quantifier": "all pool sizes, strides and types", "why_tests_cant": "Tests do not serialize at all.", "anchors": ["src/Layers/Pooling.cpp: serialize, deserialize"]}
{"id": "C46", "title": "Saved fully connected layers load back", "statement": "ConnectedLayer::deserialize of ConnectedLayer::serialize's text restores a layer that behaves as the saved one (to six decimals) in forward and backward propagation.", "quantifier": "all layers, initialised or not", "why_tests_cant": "Tests do not serialize at all.", "anchors": ["src/Layers/ConnectedLayer.cpp: serialize, deserialize, getdLdX"]}
{"id": "C47", "title": "Saved activation layers load back", "statement": "Activation::deserialize of Activation::serialize's text makes the layer compute the saved function; an unknown name throws std::runtime_error.", "quantifier": "all pairs of saved and receiving functions", "why_tests_cant": "Tests do not serialize at all.", "anchors": ["src/Layers/Activation.cpp: serialize, deserialize", "include/cnn_from_scratch/Layers/Activation.h: toString, fromString"]}
{"id": "C48", "title": "A saved model loads back", "statement": "loadModel on a file written by saveModel reproduces the sequence of layers and the output labels.", "quantifier": "all models", "why_tests_cant": "Quantifies over all layer sequences and labels.", "anchors": ["src/ModelDescription.tpp: saveModel, loadModel"]}
{"id": "C49", "title": "loadModel and saveModel report failure", "statement": "loadModel returns false if the file cannot be opened or is malformed, saveModel returns false if the file cannot be written.", "quantifier": "all files", "why_tests_cant": "Depends on every possible file content.", "anchors": ["src/ModelDescription.tpp: saveModel, loadModel"]}
{"id": "C50", "title": "Work partition covers each batch slot exactly once", "statement": "For every batch size and thread count the per-thread ranges are disjoint and their union is exactly 0..batch_size-1.", "quantifier": "all batch sizes >= 0 and thread counts >= 1", "why_tests_cant": "Infinitely many pairs.", "anchors": ["src/ModelDescription.tpp: runEpoch"]}
{"id": "C51", "title": "Every schedule consumes each sample once", "statement": "In every interleaving of the worker threads of one batch, no sample is fetched twice, samples are fetched in source order, no two threads write the same batch slot and when all threads have finished exactly min(batch_size, available) samples have been processed.", "quantifier": "all batch sizes, thread counts, data sources and schedules", "why_tests_cant": "Interleavings cannot be enumerated by a test.", "anchors": ["src/ModelDescription.tpp: runEpoch", "include/cnn_from_scratch/DataGenerator.h"]}
{"id": "C52", "title": "Each sample's gradient uses its own label", "statement": "In every interleaving of the worker threads, the gradient computed for a sample is computed with that sample's label.", "quantifier": "all schedules and thread counts", "why_tests_cant": "Needs the right interleaving.", "anchors": ["src/ModelDescription.tpp: backwardsPropagation, runEpoch", "src/Layers/Softmax.cpp: assignTrueLabel, propagateBackward"]}
{"id": "C53", "title": "The batch update does not depend on the schedule", "statement": "For a full batch, whenever every gradient uses its own label, the weights after applyBatch are the same (exact arithmetic) for every interleaving.", "quantifier": "all schedules", "why_tests_cant": "Interleavings cannot be enumerated by a test.", "anchors": ["src/ModelDescription.tpp: runEpoch", "src/Layers/Kernel.cpp: applyBatch"]}
{"id": "C54", "title": "A batch update uses only that batch's samples", "statement": "When fewer samples than batch_size remain, the weight update averages only over the samples that were processed.", "quantifier": "all data source sizes and batch sizes", "why_tests_cant": "Tests do not train.", "anchors": ["src/ModelDescription.tpp: runEpoch", "src/Layers/ConnectedLayer.cpp: applyBatch"]}
{"id": "C55", "title": "An epoch visits the whole data set", "statement": "runEpoch runs exactly ceil(size/batch_size) batches, which consume every available sample exactly once.", "quantifier": "all data set sizes and batch sizes", "why_tests_cant": "Infinitely many pairs; float rounding matters for large sizes.", "anchors": ["src/ModelDescription.tpp: runEpoch, train"]}
{"id": "C56", "title": "First use of a fully connected layer is safe under threads", "statement": "In every interleaving of threads that call propagateForward on a fresh layer with inputs of the same size, no call throws and all calls use the same weights.", "quantifier": "all schedules", "why_tests_cant": "Needs the right interleaving.", "anchors": ["src/Layers/ConnectedLayer.cpp: checkSize, propagateForward", "src/ModelDescription.tpp: runEpoch"]}
{"id": "C57", "title": "forwardPropagation result is consistent", "statement": "forwardPropagation returns one recorded matrix per layer plus the input, each recorded matrix is (the float-rounded) output of its layer on the previous full-precision output, label_idx is the index of the largest output and less than the label count, and confidence is that output; if the output size differs from the label count the program stops.", "quantifier": "all models and inputs", "why_tests_cant": "A unit test fixes a few shapes and literals; the claim ranges over all shapes, contents and indices.", "anchors": ["src/ModelDescription.tpp: forwardPropagation"]}
{"id": "C58", "title": "Training with an unknown label is reported", "statement": "backwardsPropagation with a label that is not an output label throws std::out_of_range without reading outside any matrix.", "quantifier": "all models, results and labels", "why_tests_cant": "Tests do not train.", "anchors": ["src/ModelDescription.tpp: assignLoss, lossFcn, backwardsPropagation"]}
{"id": "C59", "title": "MNIST reader returns the requested image", "statement": "For well-formed files, getImage(i) returns the label and pixels of record i for every i < numImages and throws std::runtime_error otherwise; nextImage returns the records in order, and after getImage(i) continues with i+1; header integers are decoded big-endian on either host byte order.", "quantifier": "all file contents, all access sequences", "why_tests_cant": "Access histories are unbounded.", "anchors": ["src/MNISTReader.cpp: MNISTReader, getImage, nextImage, read"]}
{"id": "C60", "title": "Pixels are normalised to a fixed range", "statement": "Every pixel value returned is (byte-128)/255, so it lies in [-128/255, 127/255], is monotone in the byte and determines it.", "quantifier": "all bytes, all image sizes", "why_tests_cant": "A unit test fixes a few shapes and literals; the claim ranges over all shapes, contents and indices.", "anchors": ["src/MNISTReader.cpp: nextImage"]}
{"id": "C61", "title": "The MNIST data source serves each epoch the same samples", "statement": "After construction and after each reset, the source hands out exactly size() samples, in the same order, before hasAvailableData becomes false.", "quantifier": "all files and histories of calls", "why_tests_cant": "Histories are unbounded.", "anchors": ["src/main.cpp: MNistGenerator"]}
{"id": "C62", "title": "Adding layers names them uniquely in order", "statement": "Any sequence of addKernel/addPooling/addConnectedLayer/addActivation calls appends one layer each, in order, and gives the n-th layer of a kind the name Kind_n, so names never repeat.", "quantifier": "all call sequences", "why_tests_cant": "Unbounded sequences.", "anchors": ["src/ModelDescription.tpp: addKernel, addPooling, addConnectedLayer, addActivation"]}
{"id": "C63", "title": "printImage colour codes are in range", "statement": "Every code printed for a matrix whose entries lie between 0 and the maximum is in 0..255 and brighter entries get codes at least as large.", "quantifier": "all images", "why_tests_cant": "A unit test fixes a few shapes and literals; the claim ranges over all shapes, contents and indices.", "anchors": ["include/cnn_from_scratch/imageUtil.h: printImage, printImageBWImpl"]}
{"id": "C64", "title": "Progress bar has constant width", "statement": "For every 0 <= val <= total the bar drawn by loadingBar has the same total width and its filled part never shrinks as val grows.", "quantifier": "all val, total, width", "why_tests_cant": "Infinitely many arguments.", "anchors": ["include/cnn_from_scratch/LoadingBar.h: loadingBar"]}
{"id": "C65", "title": "End-to-end back-propagation is the gradient of the network", "statement": "For a network of convolution, pooling, fully connected, RELU/LINEAR activation and softmax layers, the gradient stored for each weight by backwardsPropagation is the derivative of -ln(probability of the true label) with respect to that weight, wherever the network is differentiable (exact arithmetic, ignoring the float rounding of recorded activations).", "quantifier": "all networks, weights, inputs and labels", "why_tests_cant": "Derivatives at all points of all networks.", "anchors": ["src/ModelDescription.tpp: backwardsPropagation, forwardPropagation"]}
{"id": "C66", "title": "The program's own saved model can be loaded", "statement": "loadModel accepts data/trained_model.model_data shipped with the repository.", "quantifier": "the shipped file and every file of its format", "why_tests_cant": "No test loads a model.", "anchors": ["data/trained_model.model_data", "src/ModelDescription.tpp: loadModel", "src/Layers/Kernel.cpp: deserialize"]}
{"id": "C67", "title": "Training with one thread is mini-batch gradient descent", "statement": "If the model computes a network, train with one thread fails in no run, and the model it leaves computes the network obtained by mini-batch gradient descent: for each batch in the order served, every weight and bias decreases by learning_rate times the partial derivative of the batch's mean loss -ln(probability of the true label) (exact arithmetic).", "quantifier": "all networks, learning rates, batch sizes, numbers of epochs, data sources and schedules", "why_tests_cant": "A statement about derivatives at all points along all training runs.", "anchors": ["src/ModelDescription.tpp: train, runEpoch, forwardPropagation, backwardsPropagation", "src/Layers/Kernel.cpp: applyBatch", "src/Layers/ConnectedLayer.cpp: applyBatch"]}
{"id": "C68", "title": "Training with several threads is gradient descent up to labels", "statement": "With any number of threads and any interleaving, each full batch performs one step of gradient descent on the mean loss of the batch's inputs, each paired with the label of some sample of the same batch; no interleaving fails and some interleaving completes.", "quantifier": "all networks, thread counts, interleavings, data sources", "why_tests_cant": "Interleavings cannot be enumerated by a test.", "anchors": ["src/ModelDescription.tpp: train, runEpoch"]}
{"id": "C69", "title": "Building and training a model is gradient descent from normalised random weights", "statement": "Calls of addKernel, addActivation, addPooling and addConnectedLayer followed by setOutputLabels(…, SOFTMAX) build a model, and train on it performs mini-batch gradient descent from the network whose weights and biases are the generator's numbers, normalised to Euclidean length 1 per weight table and per bias table; fully connected layers take the size of their weight table from the first sample (exact arithmetic).", "quantifier": "all sequences of layers, random numbers, data sources, learning rates, batch sizes, numbers of epochs and schedules", "why_tests_cant": "Composes construction, first use and training for all random numbers and all schedules.", "anchors": ["src/main.cpp:155-166", "src/ModelDescription.tpp: addKernel, addConnectedLayer, setOutputLabels, train", "src/Layers/ConnectedLayer.cpp: checkSize, initializeWeightsAndBiases"]}
{"id": "C70", "title": "A network whose layers fit together is built, trained and used without failing, whatever the numbers", "statement": "If each layer accepts the shape of the previous layer's output (and inner convolutions have a square output), the number of outputs is the number of labels and the first epoch serves at least one full batch, then the add… calls and train() on samples of the right shape with known labels never throw, abort or reach undefined behaviour, under any interleaving of any number of threads and for any values of weights and activations (overflow and NaN included); training can always be completed, and afterwards the model classifies every input of the right shape.", "quantifier": "all networks, arithmetics, random numbers, data sources, batch sizes, thread counts, numbers of epochs, interleavings", "why_tests_cant": "Absence of failure over all networks, all values and all interleavings.", "anchors": ["src/ModelDescription.tpp: train, runEpoch, forwardPropagation, backwardsPropagation", "src/Layers/*.cpp", "src/main.cpp:155-178"]}
{"id": "C72", "title": "Validation counts exactly the images the model classifies correctly", "statement": "validate(), given a trained model and well-formed MNIST files, classifies every image of the files exactly once, as the model used alone would classify it, whatever the number of threads and however they are interleaved; correct_count ends as the number of images whose predicted label is the true label, nothing throws, and afterwards the model classifies every input as before.", "quantifier": "all trained networks that accept the images, all well-formed file contents, thread counts, interleavings, arithmetics", "why_tests_cant": "All interleavings of the worker threads over a shared model and reader; a lost or doubled image would change the printed accuracy only slightly.", "anchors": ["src/main.cpp:56-90 validate", "src/ModelDescription.tpp: forwardPropagation", "src/MNISTReader.cpp: getImage"]}
{"id": "C73", "title": "Validation threads do not use the same batch slot of a pooling layer at the same time", "statement": "While validate() runs, no two worker threads are inside the forward propagation of the same pooling layer, which overwrites the layer's record of affected indices for the batch slot in use.", "quantifier": "all trained networks, files, thread counts, interleavings", "why_tests_cant": "A data race shows only under particular timings, and its effect on the result is usually nil.", "anchors": ["src/main.cpp:76-86 (forwardPropagation called without a batch slot)", "src/Layers/Pooling.cpp propagateForward"]}
{"id": "C74", "title": "Every random number picks an existing image for inspection", "statement": "In the final loop of validate(), whatever value in 0..RAND_MAX rand() returns, the index computed is that of an image of the file, the image is read, classified and printed without exception or undefined behaviour.", "quantifier": "all random numbers, roundings, file contents, trained networks", "why_tests_cant": "The failing value of rand() has probability 2^-31 per call; the absence of others depends on rounding.", "anchors": ["src/main.cpp:95-104", "src/MNISTReader.cpp: getImage", "include/cnn_from_scratch/imageUtil.h: printImage"]}
{"id": "C71", "title": "The program as a whole does not fail", "statement": "For well-formed 28x28 MNIST training and test files with digit labels (at least 33 training images, at least one test image), main() runs to its end without an uncaught exception, abort or undefined behaviour: it trains the network on the records the generator serves in two epochs, the count validate() prints is the number of test images the trained network classifies correctly, five images are shown, and if a file name is given a model file is written.", "quantifier": "all file contents, random weights, arithmetic, learning rates, numbers of cores, schedules of the threads, random numbers", "why_tests_cant": "A test runs one pair of files on one machine under a handful of schedules; the claim joins reader, generator, training, validation and saving for all of them.", "anchors": ["src/main.cpp:147-195", "src/main.cpp:112-142 (MNistGenerator)", "src/ModelDescription.tpp: train, runEpoch, saveModel"]}
{"id": "C75", "title": "The model file the program saves restores the trained network", "statement": "When main() has been given a file name and has written the model file, loadModel on that file gives a network with the same layers (up to the six decimals written), names and labels as the trained one.", "quantifier": "all suitable training and test files, weights learnt, schedules, random numbers", "why_tests_cant": "The repository has no test that loads what main saved; the loss of layers is silent, loadModel returns true.", "anchors": ["src/main.cpp:184-189", "src/ModelDescription.tpp: saveModel, loadModel"]}
{"id": "C76", "title": "Layer calls of different threads that overlap in time do not disturb each other", "statement": "During train(), several worker threads may be inside calls of the same layer object at the same time. If the fully connected layers have been used before, then however the calls overlap, and whatever a call leaves in its own batch slot (affected_indices_[i], weight_grads_[i], bias_grads_[i]) while it runs, the outcome of train() is the outcome of some execution in which the layer calls happen one after the other; and every such execution is possible. In particular everything that holds of training with layer calls one at a time (no failure for layers that fit, for example) holds when they overlap.", "quantifier": "for all models whose fully connected layers have been used, all hyperparameters with batch size an int, all data sources, and all interleavings of the beginnings, ends, reads and writes of the layer calls of all threads", "why_tests_cant": "Whether two calls overlap, and where, is decided by the scheduler; a test run shows a few of astronomically many interleavings, and interference would show up only as slightly wrong weights.", "anchors": ["src/ModelDescription.tpp:171", "src/ModelDescription.tpp:210", "src/ModelDescription.tpp:236-261", "src/Layers/Kernel.cpp:49-66", "src/Layers/Pooling.cpp", "src/Layers/ConnectedLayer.cpp:27-44"]}
{"id": "C77", "title": "Dim<N> is the tuple of its N components", "statement": "For every N: a Dim<N> built from N integers holds them; two of them compare equal exactly when their N components agree; + and - act component by component; size() is the product of the components; getFlatIdx numbers the indices of a box one-to-one by 0..size()-1; DimIterator's ++ goes through the box in that order and ends at the end() index; << shows the components in order; a move hands them over and leaves zeros.", "quantifier": "all N, all component values, all indices in the box", "why_tests_cant": "Infinitely many sizes and values; reading an unwritten component usually happens to give a plausible value in a test.", "anchors": ["include/cnn_from_scratch/Matrix/dim.h:9-101", "include/cnn_from_scratch/Matrix/dim.h:106-134"]}
{"id": "C78", "title": "Printing a matrix with << shows its entries and keeps the streams' formatting", "statement": "os << M writes the rows of M one below the other with the layers side by side, every entry as its sign and its magnitude in a column of fixed width, floating entries with two decimals whatever stream os is, rows of equal length; precision and notation of os and of std::cout are afterwards as before.", "quantifier": "all matrices, views and lazy expressions with positive dimensions, all streams and formatting states", "why_tests_cant": "A test prints one matrix to one stream in its default state and compares a string.", "anchors": ["include/cnn_from_scratch/Matrix/SimpleMatrix.h:134-163"]}
{"id": "C79", "title": "The accuracy reported by training counts the correctly classified samples", "statement": "For each epoch train reports one accuracy: 100 times the number of samples which the model, used alone as it stood at the beginning of the sample's batch, classifies with the sample's label, divided by the size of the source. The count does not depend on slots, threads or the order in which they run, starts again at zero for every epoch, and never exceeds the number of samples served, so that the percentage lies between 0 and 100 for a source that serves what it says.", "quantifier": "all networks whose layers fit, all samples of the right shape with known labels, all batch sizes, thread counts, epochs and schedules, all arithmetics", "why_tests_cant": "The printed number comes from one interleaving of racing threads on one data set; the claim ranges over all schedules, and compares with answers of a model state that no longer exists when the number is printed.", "anchors": ["src/ModelDescription.tpp:215-278 (runEpoch, success_count)", "src/ModelDescription.tpp:280-295 (train)"]}
{"id": "C80", "title": "Training a newly built network is safe from the first call of its layers on", "statement": "A network is built with the add... calls from layers that fit together and trained with train on samples of the right shape, with any number of threads. However the threads overlap inside the forward calls of the fully connected layers, including the first call, in which such a layer creates its weights, training neither throws nor terminates the program, and the trained model can be used.", "quantifier": "all networks, samples, batch sizes, thread counts, epochs, random numbers, arithmetics, and all interleavings of the steps inside the forward calls of fully connected layers", "why_tests_cant": "Whether a second thread arrives between the two assignments of the first call depends on the scheduler; the window is a few instructions wide, so tests nearly always pass although for every network there is an interleaving in which the program is terminated.", "anchors": ["src/Layers/ConnectedLayer.cpp:49-91 (checkSize, propagateForward)", "src/ModelDescription.tpp:215-295 (runEpoch, train)", "src/main.cpp:155-172"]}
{"id": "C81", "title": "Training uses exactly the samples its data source serves", "statement": "Whatever class derived from DataGenerator the data comes from: if between two resets the source serves the samples of a list and always reports the same size, then train with any number of threads, in any interleaving, ends as the training on these lists does: same failure or same model, same count of successes and size printed for each epoch. getNextDataPoint is only called after hasAvailableData said there is a sample, the source is reset once after each epoch, and afterwards it serves what would come next, so that a further training goes on from there. For the MNIST source of main.cpp on well-formed files these are records 1, ..., n-1 in every epoch.", "quantifier": "all data sources, samples, models, hyperparameters, numbers of threads and schedules; for the MNIST source all well-formed files", "why_tests_cant": "Tests use one source and whatever interleaving happens to run; the claim is about every implementation of the interface and every interleaving of the threads asking it for samples.", "anchors": ["include/cnn_from_scratch/DataGenerator.h:15-22", "src/ModelDescription.tpp:215-295 (runEpoch, train)", "src/main.cpp:112-142 (MNistGenerator)"]}
{"id": "C82", "title": "What training does when the number of samples is not a multiple of the batch size", "statement": "train on any number of samples not smaller than the batch size never fails, and the model it leaves is given by gradient descent with one remembered gradient per slot: each sample of a batch replaces the gradient of one slot by its own (in order from the first slot when there is one thread), the slots a short last batch does not reach keep the gradient of an earlier sample under an earlier network, and every weight and bias then decreases by the rate times the mean of the partial derivatives in all slots. In particular this is not gradient descent on the mean loss of the short batch. main trains in this way: 59999 samples in batches of 32.", "quantifier": "all fitting networks, samples, batch sizes, learning rates, numbers of epochs, numbers of threads and schedules", "why_tests_cant": "A test sees numbers after a few steps and has no reference for them: the behaviour is a deviation from gradient descent that only shows in the last batch of an epoch and depends on what earlier networks computed.", "anchors": ["src/ModelDescription.tpp:166-295 (runBatch, runEpoch, train)", "include/cnn_from_scratch/Layers/Kernel.h:84-97 (setBatchSize, applyBatch)", "src/main.cpp:166-190"]}
{"id": "C83", "title": "What training computes for any activation, at kinks and at ties, and what main computes", "statement": "At any input, back-propagation stores for every weight and bias the derivative of the loss of a network that differs from the given one only in the layers without parameters: every activation is replaced by the straight line through the value taken with the slope the program uses (for SIGMOID and TANGENT the derivative at the output instead of the input; for RELU at 0 the slope 0), and every MAX or MIN pooling by the selection of the first best entry of each window. That network has the same output at this input. Training is gradient descent with remembered gradients (C82) where the gradients are those of these networks, without any condition on differentiability. In particular this describes the model that main has trained when it ends.", "quantifier": "all fitting networks with any activations, all inputs, labels, samples, batch sizes, learning rates, epochs, numbers of threads and schedules; for main all suitable files, random weights, numbers of cores and schedules", "why_tests_cant": "The claim identifies the computed numbers with derivatives for all real inputs, including the measure-zero sets of kinks and ties, and follows them through thousands of updates of all parameters; tests compare a few numbers with finite differences, which for SIGMOID do not even agree.", "anchors": ["include/cnn_from_scratch/Layers/Activation.h", "include/cnn_from_scratch/Layers/Pooling.h", "src/ModelDescription.tpp:60-295", "src/main.cpp:147-196"]}
{"id": "C84", "title": "Rounding errors of forward propagation are bounded, and the label is right when the margin exceeds the bound", "statement": "In any arithmetic whose operations and library functions return the exact result up to a relative error u and an absolute error η as long as the exact result does not exceed Ω, forwardPropagation of a network of convolutions, fully connected layers, poolings and activations (with parameters held exactly, inputs off by at most e, and no intermediate sum of magnitudes above Ω) returns finite numbers; every probability differs from the one of the exact real network by at most an explicit bound computed layer by layer, and the label is the exact network's label whenever its probability exceeds the others by more than that bound. binary64 with round-to-nearest-even is such an arithmetic.", "quantifier": "all networks, inputs, precisions and roundings; for the label all inputs with a margin", "why_tests_cant": "Tests compare a few outputs with a tolerance chosen by hand; the bound covers every network, every input and every rounding of every operation.", "anchors": ["include/cnn_from_scratch/Layers/*.h: propagateForward", "src/Layers/*.cpp", "src/ModelDescription.tpp: forwardPropagation"]}
{"id": "C85", "title": "Finite inputs give finite probabilities", "statement": "For a network with finite binary64 weights and a finite input, forwardPropagation yields probabilities that are finite numbers, and the label is an entry of largest probability.", "quantifier": "all networks with finite weights, all finite inputs", "why_tests_cant": "The failure needs intermediate sums beyond the range of the number type, which test data never has; the claim is about every finite input.", "anchors": ["include/cnn_from_scratch/Layers/Softmax.h", "src/Layers/Softmax.cpp", "src/ModelDescription.tpp: forwardPropagation"]}
{"id": "C86", "title": "An exception raised for a training sample can be handled by the caller of train", "statement": "If processing a sample throws (for example because the sample has a size the network does not accept), train on data with that sample throws the same exception to its caller, as a direct call of forwardPropagation does.", "quantifier": "all networks, samples, hyperparameters, numbers of threads and schedules", "why_tests_cant": "A test that triggers the case does not report a failure, it ends the test program; that no exception of a worker ever reaches the caller is a statement about all executions.", "anchors": ["src/ModelDescription.tpp:231-261 (threads of runEpoch)", "include/cnn_from_scratch/exceptions.h"]}
{"id": "C87", "title": "A trained model converges to the exactly trained one as the precision grows", "statement": "Fix a network, samples, learning rate, random numbers and a schedule of the threads. For every ε > 0 there is a δ > 0 such that train, executed in any arithmetic whose roundings are within δ on a model, samples, rate and random numbers within δ of the given ones, ends without exception or undefined behaviour exactly when and as the run without rounding does, and every parameter of the resulting model is finite and within ε of the parameter computed without rounding. For networks without MAX/MIN pooling and with SIGMOID, LINEAR or TANGENT activations the run without rounding is the one in real arithmetic, so the result is close to gradient descent as the code performs it; for the others only the outcome of comparing equal numbers is left open.", "quantifier": "all networks, data, hyperparameters, numbers of threads, schedules, all ε, and all arithmetics of sufficient precision", "why_tests_cant": "Tests run one arithmetic (double) on chosen data; that no amount of training amplifies roundings without limit, whatever the data, and what remains in the limit, is a statement about all precisions.", "anchors": ["src/ModelDescription.tpp:140-330 (training)", "src/Layers/Kernel.cpp", "src/Layers/ConnectedLayer.cpp", "src/Layers/Activation.cpp", "src/Layers/Softmax.cpp", "src/Layers/Pooling.cpp"]}
{"id": "C88", "title": "What the program leaves on the terminal", "statement": "During an epoch the terminal shows one progress line which each batch overwrites completely, with the cursor visible between updates; its percentage grows with the batches done and reaches 100 % when the epoch ends. Each epoch leaves its progress line and a line with the accuracy. An image printed appears as a rectangle of coloured squares, one for each place, each row ending with default colours. A whole run of the program leaves exactly its messages, epochs, five images with their results and the message about saving, one below the other, and the terminal with default colours, visible cursor and an empty line.", "quantifier": "all numbers of batches, all images, all files, random numbers, weights, numbers of cores and schedules, all roundings with the properties of IEEE 754", "why_tests_cant": "Tests of console output compare the characters written for a few inputs; what a terminal shows after them (overwritten lines, colours and cursor left behind) for every number of batches, every image and every run is not observed by any of them.", "anchors": ["include/cnn_from_scratch/LoadingBar.h:6-14", "include/cnn_from_scratch/imageUtil.h:7-55", "src/ModelDescription.tpp:273,291", "src/main.cpp:39-106,182-188", "src/MNISTReader.cpp:40-42"]}
{"id": "C89", "title": "Training parameters that make no sense", "statement": "train called with a batch size or a number of threads that is not positive throws an exception. With no epochs, or a negative number of them, it returns at once and the model saves to the same file as before.", "quantifier": "all models with a layer that can learn or pools, all parameters, data, schedules and arithmetics", "why_tests_cant": "No test trains a model with such parameters, and a run with undefined behaviour may look right.", "anchors": ["src/ModelDescription.tpp: train, runEpoch, setBatchSize", "include/cnn_from_scratch/ModelDescription.h: Hyperparameters", "src/Layers/Kernel.cpp: setBatchSize", "src/Layers/Pooling.cpp: setBatchSize", "src/Layers/ConnectedLayer.cpp: setBatchSize"]}
{"id": "C90", "title": "Results and weights printed for inspection", "statement": "Printing the results of a forward pass shows the position of the label found and its confidence; after the true label has been assigned it also shows the loss, the true label and the first position of that label among the labels. debugLayerWeights shows for each layer, in order, the Euclidean norms of its weights and of its biases, 0 for layers without any.", "quantifier": "all models, inputs, labels, weights of any shape, terminals at the start of a line", "why_tests_cant": "No test prints results or norms; the number of layers, their shapes and the texts of numbers are unlimited.", "anchors": ["src/main.cpp:24-51", "include/cnn_from_scratch/Matrix/MatrixMath.h: l2Norm", "src/ModelDescription.tpp: assignLoss", "include/cnn_from_scratch/Layers/ModelLayer.h:11-12"]}
{"id": "C91", "title": "A small enough step of training lowers the loss", "statement": "When a model is trained for one epoch on one batch, and the derivative of the mean loss of the batch with respect to some weight or bias is not 0, then for every learning rate that is positive and small enough the trained model has a smaller mean loss on the batch than before.", "quantifier": "all networks and samples at which the layers are differentiable, all learning rates below a bound that depends on them, all schedules", "why_tests_cant": "Tests train with particular rates on particular data; that no smaller rate helps, or that each small rate does, cannot be found by trying.", "anchors": ["src/ModelDescription.tpp: train, updateAndClearParameters", "src/ModelDescription.cpp: backwardsPropagation", "src/Layers/Kernel.cpp", "src/Layers/ConnectedLayer.cpp", "src/Layers/Pooling.cpp", "include/cnn_from_scratch/activation_functions.h"]}
{"id": "C92", "title": "Training the last layer finds its best parameters, and a classifier if there is one", "statement": "If the only parameters of a network are those of its last fully connected layer, every epoch is one batch with the same samples in any order, and the learning rate is positive and at most 2/R, where R bounds one plus the squared length of what the other layers give for a sample, then the mean loss never rises from epoch to epoch and approaches the least possible value at the rate 1/epochs; and if some weights and biases give every sample's label the greatest probability, then after enough epochs the trained model answers with the right label for every sample, whatever the random initial weights and the order of the threads.", "quantifier": "all numbers and kinds of pooling and activation layers in front, all initial weights, all samples and labels, all orders of the samples, all schedules, all numbers of epochs", "why_tests_cant": "Convergence speaks of all later epochs and all initial weights; a test sees one run of finitely many epochs.", "anchors": ["src/ModelDescription.tpp: train, updateAndClearParameters", "src/ModelDescription.cpp: forwardPropagation, backwardsPropagation", "src/Layers/ConnectedLayer.cpp", "src/Layers/Pooling.cpp", "include/cnn_from_scratch/activation_functions.h"]}
{"id": "C93", "title": "Training the last layer in batches learns what can be learnt", "statement": "If the only parameters of a network are those of its last fully connected layer and one thread trains it in several batches per epoch with the same samples in any order, then for every learning rate up to 2/R the number of wrong answers counted during the whole training is bounded by the distance from the initial to any other parameters and the loss of those; so if some parameters tell the samples apart, the accuracies printed tend to 100 % on average and 100 % is printed for at least one epoch; and for every learning rate that is small enough the trained model gives the right label for every sample after enough epochs, however the samples are divided into batches.", "quantifier": "all numbers and kinds of pooling and activation layers in front, all initial weights, all samples and labels, all batch sizes that divide the number of samples, all orders of the samples in every epoch, all numbers of epochs", "why_tests_cant": "The bound speaks of all orders of the samples, all comparison parameters and all numbers of epochs; a test sees single runs.", "anchors": ["src/ModelDescription.tpp:215-278 (runEpoch)", "src/ModelDescription.tpp:280-295 (train)", "src/ModelDescription.cpp: forwardPropagation, backwardsPropagation", "src/Layers/ConnectedLayer.cpp"]}
{"id": "C94", "title": "Training and validation end under every fair schedule", "statement": "No worker thread of train() or validate() ever waits for another: each ends after a number of its own steps that depends only on its share of the work (per sample 2L+4 steps for a model of L layers, per image L+2, and one step to find nothing left). A batch whose samples are all available is over if and only if every thread has made its own number of steps; training never hangs, whatever the model, the samples and the hyperparameters, under every schedule that lets each thread run.", "quantifier": "all models, samples, batch sizes, numbers of threads, schedules (also endless ones), with calls as single steps or overlapping", "why_tests_cant": "A test sees a few schedules of a few runs; a hang or starvation may need one particular interleaving.", "anchors": ["src/ModelDescription.tpp: runEpoch (215-278), train (280-295)", "src/main.cpp: validate (56-106)"]}
{"id": "C95", "title": "Data races between training threads: only on the label, and always there", "statement": "While train() processes a batch, two worker threads access the same memory at the same time, one of them writing and nothing ordering the accesses, only in one way once the fully connected layers have been used: one calls Softmax::assignTrueLabel and the other calls it, too, or Softmax::propagateBackward; the memory is knows_true_label_/true_label_idx_. Before that the weights of unused fully connected layers are the only other such memory. With at least two threads, two slots and two samples that can be processed, this data race can happen (so the behaviour is undefined); with one thread there is none. Steps of different threads that do not access common memory can be exchanged without changing the end of the batch.", "quantifier": "all models with an output layer, all samples, batch sizes, numbers of threads and schedules; for the footprints: all states, all steps, all values put into memory not accessed", "why_tests_cant": "A data race need not show in any run; that there is no other one is a statement about all pairs of points of all executions.", "anchors": ["src/ModelDescription.tpp: runEpoch (231-261), backwardsPropagation (192-213)", "src/Layers/Softmax.cpp:30-39,76-85", "src/Layers/ConnectedLayer.cpp:49-75", "src/Layers/Kernel.cpp", "src/Layers/Pooling.cpp"]}
{"id": "C96", "title": "A saved file that ends too early is not taken for a model", "statement": "If the beginning of a file written by saveModel is loaded successfully, then the whole file is, with the same layers and labels; so a file cut off (full disk, interrupted copy) is reported as failed or loads completely. In particular a file that ends inside a layer's text, behind its name and before its last number, is never reported as loaded.", "quantifier": "all saved models (any number of layers and labels), all points where the file can end, all models it is loaded into, all lawful conversions of numbers", "why_tests_cant": "A test cuts a few files at a few places; the statement is about every saved model and every point of its file.", "anchors": ["src/ModelDescription.tpp: loadModel (86-140)", "src/Layers/*.cpp: deserialize", "include/cnn_from_scratch/Serialization.h: clearLine, readLine, expect"]}
{"id": "C97", "title": "A NaN ruins the network for good", "statement": "Training a network of finite parameters on finite samples with a finite learning rate should keep all parameters finite. The code does not: a weight and an input of 2^900 turn all parameters of a fully connected layer into NaN in one batch (binary64). In general: a parameter that is NaN stays NaN in all further training; one sample that is answered with NaN probabilities in a batch makes NaN, after that batch, all weights and biases of every convolution, all of every fully connected layer not followed by pooling, and those of at least one neuron of every other one; and one NaN parameter in the layer before softmax makes the network answer the first label, with NaN probabilities, whatever it is asked.", "quantifier": "all networks whose layers fit together, all inputs and samples of the right shape, batch sizes, numbers of threads, schedules, numbers of epochs, and all arithmetics in which the operations used keep NaN and comparisons with it are false", "why_tests_cant": "Tests use well-behaved numbers; that no later training repairs a NaN, and that none of the layers, labels or schedules protects the parameters, are statements about all executions.", "anchors": ["src/ModelDescription.tpp: forwardPropagation (155-183), backwardsPropagation (192-213), runEpoch (215-276)", "src/Layers/Softmax.cpp", "src/Layers/Kernel.cpp", "src/Layers/ConnectedLayer.cpp", "src/Layers/Pooling.cpp"]}
{"id": "C98", "title": "Rounding errors of back-propagation are bounded", "statement": "In any arithmetic that rounds (as in C84) and whose conversion to float has a relative and an absolute error, forwardPropagation followed by backwardsPropagation leaves in every layer with parameters finite gradients; each entry differs by at most an explicit bound, computed layer by layer from network, input and label, from the exact derivative of the loss of the network that C83 describes (and of the network itself, if its activations are RELU or LINEAR and no kink or tie is met). The bound is zero if nothing is rounded and no kink or tie is met. The records of layers converted to float, and branches taken differently because of rounding, are accounted for. binary64 with conversion to binary32 is such an arithmetic.", "quantifier": "all networks whose layers fit together, all inputs, labels, batch slots, precisions and roundings below overflow", "why_tests_cant": "Numerical gradient checks compare a few entries with a tolerance chosen by hand; the bound covers every entry, network, input and rounding, including inputs where rounding changes a branch.", "anchors": ["src/ModelDescription.tpp: forwardPropagation (155-183), backwardsPropagation (192-213)", "src/Layers/Kernel.cpp: propagateBackward, getdLdX", "src/Layers/ConnectedLayer.cpp: propagateBackward", "src/Layers/Pooling.cpp: propagateBackward", "include/cnn_from_scratch/Layers/*.h: propagateBackward"]}
{"id": "C99", "title": "Training in rounded arithmetic takes gradient steps up to an explicit error", "statement": "In any arithmetic that rounds (as in C98), if nothing overflows, a full batch of train fails under no schedule, some schedule ends it, and then every weight and bias differs by at most an explicit bound from old value minus learning_rate times the mean of the exact derivatives of the loss over the samples of the batch (with the labels of C52; the right ones if every gradient used its own label). Where all layers are differentiable this is the step of gradient descent on the mean loss. All parameters stay finite. A whole run of train is a sequence of such steps, one per batch; with one thread all labels are right. If the batch size does not divide the number of images, the mean is over the gradients that the slots contain, some of them of earlier batches and networks. The bound is zero if nothing is rounded.", "quantifier": "all networks whose layers fit together, all batches, numbers of threads, schedules, epochs, learning rates, precisions and roundings below overflow", "why_tests_cant": "Order of summation and of threads changes the rounded result; no test can visit all schedules, networks and roundings, and a test has no exact value to compare with.", "anchors": ["src/ModelDescription.tpp: runEpoch (216-278), train (281-295)", "src/Layers/Kernel.cpp: applyBatch", "src/Layers/ConnectedLayer.cpp: applyBatch"]}
{"id": "C100", "title": "Data races between validation threads: only on the records of pooling layers, and always there", "statement": "While validate() classifies the images of any files with a model whose fully connected layers have been used, two worker threads access the same memory at the same time, one of them writing and nothing ordering the accesses, exactly when both are inside the forward propagation of the same pooling layer; the memory is the layer's record for batch slot 0. So a model without pooling layers is validated without data race by any number of threads. With a pooling layer, two threads and two images the race can happen, so the behaviour of the program is undefined. The weights of a fully connected layer that has not been used are the only other such memory.", "quantifier": "all models, files, numbers of threads, schedules, reachable states, pairs of threads, memory locations", "why_tests_cant": "a data race shows up in few of the possible interleavings and need not have visible effects on the machine at hand; its absence cannot be seen in any number of runs", "anchors": ["src/main.cpp:66-86", "src/ModelDescription.tpp:155-183", "src/Layers/Pooling.cpp:47-90", "src/Layers/ConnectedLayer.cpp:49-75"]}
{"id": "C101", "title": "Training again with the same data: same result with one thread only", "statement": "Two calls of train() on the same model with the same samples and hyperparameters end with the same parameters. With one thread this holds whatever the arithmetic does. With several threads it does not, even if every sample is used with its own label: with a thread for each sample of a batch, every order of the samples is the order in which some run sums the gradients, the result is the step for the gradients in this order, and in binary64 two such runs of a batch of four end with a weight of 0 and of -1/8. Two runs of a batch with the right labels are never further apart than twice the rounding error of one step.", "quantifier": "all models, samples, hyperparameters, schedules, orders of a batch, arithmetics; binary64 for the violation", "why_tests_cant": "the order in which threads take samples is not under the control of a test, and equal results of some runs say nothing about the others", "anchors": ["src/ModelDescription.tpp: runEpoch (216-278), train (281-295)", "src/Layers/Kernel.cpp: applyBatch", "src/Layers/ConnectedLayer.cpp: applyBatch"]}
{"id": "C102", "title": "An entry of the feature maps depends on a fixed rectangle of the input", "statement": "Let the first layers of a model be convolution, pooling and activation layers. After n of these layers the entry (i, j) of what forwardPropagation records depends only on a rectangle of the input, of a size and step computed from the filter and pool sizes and strides: two inputs, of whatever sizes and in whatever batch slots, give the same numbers at (i, j) and (i', j') whenever they hold the same numbers in the two rectangles, bit for bit, whatever the arithmetic. Hence shifting the input by a multiple of the step shifts the feature maps.", "quantifier": "all sequences of such layers, sizes, strides, weights, inputs, positions, batch slots and arithmetics", "why_tests_cant": "The claim compares two runs over all pairs of inputs and positions, for all layer sequences.", "anchors": ["src/ModelDescription.tpp: forwardPropagation", "src/Layers/Kernel.cpp: propagateForward", "src/Layers/Pooling.cpp: propagateForward", "src/Layers/Activation.cpp: propagateForward"]}
{"id": "C103", "title": "MIN and MAX pooling of windows that contain a NaN", "statement": "A window that contains a number gives the greatest (MAX) or smallest (MIN) of its numbers. This holds if the first entry of the window is a number: NaNs at other positions are skipped. It fails if the first entry is a NaN: the result is then that NaN whatever else the window contains. In every arithmetic the result is the entry at which a scan over the window in storage order ends, which moves on when the next entry compares greater (smaller) than the kept one, and the recorded index is that of this entry.", "quantifier": "all inputs, pool sizes, strides, comparisons", "why_tests_cant": "The behaviour depends on the position of the NaN in the window; the claim covers all windows and all comparisons.", "anchors": ["src/Layers/Pooling.cpp: propagateForward", "include/cnn_from_scratch/Matrix/MatrixMath.h: minIndex, maxIndex"]}
{"id": "C104", "title": "Training leaves the sums of the last layer's parameters over the labels unchanged", "statement": "If the last layer before softmax is fully connected, then training changes its parameters only so that, in exact arithmetic, for each of its inputs the weights over all labels add up to the same number as before, and so do the biases; with two labels the parameters of one change by the opposite of those of the other. Adding the same number to the weights of an input for all labels changes neither the predictions nor what is learnt: the trained models differ by the same number and give the same probabilities.", "quantifier": "all networks ending with a fully connected layer, all samples and labels, any number of threads and schedules (also when threads mix up labels and when short batches use remembered gradients), any number of epochs; main on all suitable files", "why_tests_cant": "The claim is about every run of training, under every schedule, and about exact sums; a test runs a few and compares rounded numbers.", "anchors": ["src/Layers/Softmax.cpp: getdLdX", "src/Layers/ConnectedLayer.cpp: propagateBackward, applyBatch", "src/ModelDescription.tpp: train"]}
{"id": "C105", "title": "A RELU unit that is off for all training samples is not changed by training", "statement": "If a unit of a fully connected layer, with only layers without parameters before it and a RELU layer after it, computes no positive number for any training sample, then training leaves its weights and its bias as they are, so it stays off for all training samples for ever.", "quantifier": "all such networks, all samples and labels, any number of threads and schedules (also when threads mix up labels and when short batches use remembered gradients), any number of epochs and learning rate", "why_tests_cant": "The claim is about every number of epochs and every schedule; a test cannot tell 'never' from 'not yet'.", "anchors": ["src/Layers/Activation.cpp: propagateBackward", "src/Layers/ConnectedLayer.cpp: propagateBackward, applyBatch", "src/ModelDescription.tpp: train"]}
{"id": "C106", "title": "Two equal units stay equal during training", "statement": "If two units of a fully connected layer have the same weights and the same bias, and the fully connected layer that follows after an activation uses them with the same weights, then this is still so after training. So the random initial weights (C40) are what makes units different.", "quantifier": "all such networks, all activation functions, all samples and labels, any number of threads and schedules, any number of epochs and learning rate", "why_tests_cant": "The claim is about every run of training, under every schedule, and about exact equality of sums taken in different orders.", "anchors": ["src/Layers/ConnectedLayer.cpp: propagateForward, propagateBackward, applyBatch", "src/Layers/Activation.cpp", "src/ModelDescription.tpp: train"]}
{"id": "C107", "title": "Training changes the weights of the first fully connected layer only by linear combinations of the inputs", "statement": "If the first layer with parameters is fully connected, then, for each of its units, the weights after training minus those before are a linear combination of what enters the layer for the training samples. So a linear relation that all training samples satisfy is not learnt from: the weights of a pixel which is always 0 keep their random values, and the difference of the weights of two pixels which are always equal stays the same.", "quantifier": "all such networks, whatever layers follow, all samples and labels, any number of threads and schedules, any number of epochs and learning rate", "why_tests_cant": "The claim is about every network, every set of samples and every schedule, and about exact membership in a subspace.", "anchors": ["src/Layers/ConnectedLayer.cpp: getdLdW, propagateBackward, applyBatch", "src/ModelDescription.tpp: train"]}
{"id": "C108", "title": "The weights of a pixel that is always 0 are not touched by training, in the arithmetic of the program", "statement": "If the first layer is fully connected and has its weights, and a pixel is 0 in all training images, then after training each weight of this pixel is exactly the number it was before, or NaN. No rounding, no other pixel, no label and no schedule of the threads can change it otherwise.", "quantifier": "all such networks, whatever layers follow, in binary64 arithmetic with any finite learning rate (and in any arithmetic with the few laws about 0 and NaN listed in Spec/Dark), all samples and labels, any number of threads and schedules, any number of epochs, first batch full", "why_tests_cant": "The claim is about bitwise equality after any number of batches, under every schedule and for all numbers, also infinite ones; a test sees one run.", "anchors": ["src/Layers/ConnectedLayer.cpp: getdLdW, propagateBackward, applyBatch", "src/ModelDescription.tpp: forwardPropagation, train"]}
{"id": "C109", "title": "A convolution layer has weights for all the filters it was made for", "statement": "A convolution layer made with F filters of size A x B x C, if making it succeeds, has weights of size A x B x (C*F), so that a forward pass finds all its filters; addKernel and addConnectedLayer make layers with the number of filters or units they are given.", "quantifier": "all filter sizes and counts, all random numbers, any arithmetic", "why_tests_cant": "The product C*F is computed modulo 2^32; it is wrong only for sizes no test tries.", "anchors": ["src/Layers/Kernel.cpp:8-12", "src/Layers/Kernel.cpp: propagateForward", "src/ModelDescription.tpp:15-39"]}
{"id": "C110", "title": "A file that is loaded and saved again does not change", "statement": "If saveModel writes a file, loadModel reads it into a new model and that model is saved again, the second file equals the first, character by character, although the numbers are stored with six decimals only and the strides not at all. (False: activation layers are lost on the way. What holds: the second file is the one of the model without its activation layers, and from then on the file stays the same.)", "quantifier": "all models ending in a softmax layer with one-word labels, layers of any size and stride with finite weights, any binary format with reading and printing rounded to nearest", "why_tests_cant": "The numbers change when they are stored, so whether they print the same again depends on the rounding of each; tests see a few of them.", "anchors": ["src/ModelDescription.tpp:61", "src/ModelDescription.tpp:91", "src/SimpleMatrix.tpp", "src/Layers/Kernel.cpp:223", "src/Layers/Pooling.cpp:134", "src/Layers/ConnectedLayer.cpp:140"]}
{"id": "C111", "title": "A learning rate of 0 changes nothing", "statement": "Training a model with a learning rate of 0 leaves all weights and biases of all layers as they were, whatever the samples, the batch size, the number of epochs and threads and the schedule. (False in binary64: a gradient that overflows to NaN gives NaN, as 0 times NaN is NaN. What holds: in exact arithmetic nothing changes, and in any arithmetic with products with the rate 0 or NaN each weight and bias is the same or NaN.)", "quantifier": "all models whose layers have their weights, all sample lists (also empty ones or fewer samples than a batch), labels, batch sizes below 2^24, threads, schedules (also with overlapping calls) and numbers of epochs", "why_tests_cant": "Tests run a few networks and schedules; an update that bypasses the learning rate on one path, or an overflow in one gradient, is missed.", "anchors": ["src/ModelDescription.tpp:269", "src/Layers/Kernel.cpp:49", "src/Layers/ConnectedLayer.cpp:27"]}
{"id": "C112", "title": "Training changes the numbers of a model, not what it is", "statement": "Training leaves the labels, the number, order, names and kinds of the layers, filter sizes and counts, strides, pool sizes and types, activation functions and the sizes of all weights and biases as they were, at its end and at every moment in between; a fully connected layer takes the size of its weights from its first input and then keeps it. Classifying an image does not change them either.", "quantifier": "all models (also ones that were not built by the add functions), training parameters, sample lists, labels, threads, schedules and epochs for which training does not fail", "why_tests_cant": "An update that resizes weights or replaces a layer on a rare path (partial batch, empty gradient, an input of another size) is not met by a few test runs.", "anchors": ["src/ModelDescription.tpp:280", "src/ModelDescription.tpp:215", "src/Layers/Kernel.cpp:49", "src/Layers/ConnectedLayer.cpp:27", "src/Layers/ConnectedLayer.cpp:49"]}
{"id": "C113", "title": "A batch update depends only on how often each sample occurs", "statement": "Training one batch from a given model gives the same weights and biases as training a batch k times as large that contains each sample k times, in any order: the update is an average over the batch, not a sum, and the order of the samples does not matter.", "quantifier": "all networks whose layers fit together, all samples and labels, batch sizes and numbers of copies, orders, threads and schedules, in exact arithmetic", "why_tests_cant": "Needs every combination of batch size, number of copies, order and schedule; a wrong divisor or a slot that is skipped or used twice shows only for some of them.", "anchors": ["src/ModelDescription.tpp:215", "src/Layers/Kernel.cpp:49", "src/Layers/ConnectedLayer.cpp:27", "src/Layers/Pooling.cpp:30"]}
{"id": "C114", "title": "A training can be continued by another one", "statement": "Calling train on a model for some epochs and then calling train on the result for further epochs, with the same batch size and learning rate, gives the weights and biases that one call of train over all these epochs gives.", "quantifier": "for all networks, all learning rates, all batch sizes, all numbers of epochs before and after the break and all samples in each of them", "why_tests_cant": "a test breaks the training of one network at one place; the claim is about all places and all networks, and the second call empties the stored gradients of every layer first, which one test cannot tell from keeping them", "anchors": ["src/ModelDescription.tpp:284", "src/ModelDescription.tpp:215", "src/Layers/Kernel.cpp:49", "src/Layers/ConnectedLayer.cpp:27"]}
{"id": "C115", "title": "Where an epoch ends does not matter", "statement": "If the number of samples in an epoch is a multiple of the batch size, training for several epochs gives the same weights and biases as training for one epoch over the samples of all these epochs one after the other: nothing is carried over, reset or decayed between epochs.", "quantifier": "all networks, samples, labels, batch sizes, numbers of batches in an epoch and numbers of epochs", "why_tests_cant": "A state that is reset or kept at the end of an epoch (a rate, a slot, a position in the source) shows only for some numbers of batches and epochs, and within the tolerance of a test often not at all.", "anchors": ["src/ModelDescription.tpp:215", "src/ModelDescription.tpp:288", "src/Layers/Kernel.cpp:49", "src/Layers/ConnectedLayer.cpp:27"]}
