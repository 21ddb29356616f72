{"id": "C01", "title": "Base64 round trip", "statement": "Encoding any byte string with PsiBase64 Encode and decoding the produced text with Decode returns exactly the original bytes; the encoded text has length 4*ceil(n/3), uses only the 64-character alphabet plus at most two trailing '='.", "quantifier": "all byte strings of every length", "why_tests_cant": "infinitely many inputs; the three residues of the length and all bit patterns interact", "anchors": ["src/PsiBase64.h: PsiBase64::Encode, PsiBase64::Decode", "src/PsiBase64.cpp"]}
{"id": "C02", "title": "Bit counting", "statement": "BitManip::count and BitManip::countKernighan both return the number of set bits of their 64-bit argument, and therefore agree.", "quantifier": "all 2^64 words", "why_tests_cant": "2^64 inputs, the branch-free SWAR version has no small-case structure", "anchors": ["src/BitManip.h: count, countKernighan"]}
{"id": "C03", "title": "Default load balancer is a partition", "statement": "For every number of tasks and every positive number of threads, the (thread, slot) -> task map of LoadBalancerDefault, restricted to task numbers below the total, hits every task exactly once; no thread gets more than ceil(tasks/min(threads,tasks)) slots.", "quantifier": "all task counts and all thread counts >= 1", "why_tests_cant": "unbounded arithmetic over both counts", "anchors": ["src/LoadBalancerDefault.h", "src/LoadBalancerMpi.h"]}
{"id": "C04", "title": "Weighted load balancer is a partition with the greedy bound", "statement": "LoadBalancerWeights assigns every task to exactly one thread, preserves the total weight, and the heaviest thread carries at most the average load plus one task weight (list scheduling bound).", "quantifier": "all weight vectors and all thread counts >= 1", "why_tests_cant": "greedy choice depends on the whole history of loads", "anchors": ["src/LoadBalancerWeights.h"]}
{"id": "C05", "title": "Parallel loop executes each task exactly once under every schedule", "statement": "Parallelizer loopCreate/parallelFor runs the user functor exactly once for each task index in the range, whatever the interleaving of the threads, for the pthreads, serial and Parallelizer2 back ends, also with a balancer made from one weight per task.", "quantifier": "all ranges, thread counts and interleavings of the worker threads", "why_tests_cant": "schedules cannot be enumerated by tests", "anchors": ["src/PthreadsNg.h: thread_function_wrapper, loopCreate", "src/NoPthreadsNg.h", "src/Parallelizer2Pthread.h", "src/Parallelizer2Serial.h", "src/Pthreads.h"]}
{"id": "C06", "title": "Parallel loop with independent tasks equals the serial loop", "statement": "If task i writes only to slot i (or to its own thread's accumulator that is afterwards summed), the memory after any parallel execution equals the memory after the serial loop.", "quantifier": "all bodies, ranges, thread counts and interleavings", "why_tests_cant": "data-race freedom is a statement on all schedules", "anchors": ["src/PthreadsNg.h", "src/Parallelizer2Pthread.h", "src/Concurrency.h: storageSize, storageIndex"]}
{"id": "C07", "title": "Per-thread storage never aliases or overflows", "statement": "For every npthreads and thread number below it the index returned by Concurrency::storageIndex is below Concurrency::storageSize, and two different threads never share an index when threads are in use.", "quantifier": "all thread counts and thread numbers", "why_tests_cant": "all values of both", "anchors": ["src/Concurrency.h: storageSize, storageIndex"]}
{"id": "C08", "title": "Gather delivers every rank's block to the root", "statement": "After MPI::pointByPointGather with root 0 on every rank, element t of the root's vector is the value the owner of t had, for every vector length, number of ranks and message arrival order. (For root != 0 this fails: messages are sent to rank 0.)", "quantifier": "all vector lengths, rank counts, schedules of message delivery", "why_tests_cant": "message orders and sizes unbounded", "anchors": ["src/MpiYes.h: pointByPointGather"]}
{"id": "C09", "title": "Dense to CSR and back", "statement": "Building a CrsMatrix from a dense matrix and converting back with toDense gives the same matrix entrywise, and the CSR object stores exactly the nonzero entries.", "quantifier": "all sizes and all entries", "why_tests_cant": "unbounded sizes and sparsity patterns", "anchors": ["src/CrsMatrix.h: CrsMatrix(const Matrix&), toDense, fullMatrixToCrsMatrix, crsMatrixToFullMatrix"]}
{"id": "C10", "title": "CSR matrix-vector product", "statement": "CrsMatrix::matrixVectorProduct(x,y) adds to x the product of the represented dense matrix with y, for every valid CSR matrix including ones with empty rows and repeated or unsorted columns.", "quantifier": "all valid CSR matrices and vectors", "why_tests_cant": "all sparsity patterns", "anchors": ["src/CrsMatrix.h: matrixVectorProduct"]}
{"id": "C11", "title": "CSR multiply", "statement": "multiply(C,A,B) produces a valid CSR matrix whose dense form is the product of the dense forms.", "quantifier": "all conforming valid CSR matrices", "why_tests_cant": "sparsity patterns and accumulator reuse across rows", "anchors": ["src/CrsMatrix.h: multiply"]}
{"id": "C12", "title": "CSR conjugate transpose", "statement": "transposeConjugate(B,A) produces a valid CSR matrix whose (i,j) entry is the conjugate of A's (j,i) entry; applying it twice gives back the same dense matrix.", "quantifier": "all valid CSR matrices", "why_tests_cant": "all sparsity patterns", "anchors": ["src/CrsMatrix.h: transposeConjugate"]}
{"id": "C13", "title": "CSR linear combination", "statement": "operatorPlus(A,B,b1,C,c1) yields a valid CSR matrix whose dense form is b1*B + c1*C, also when the two matrices have different row counts (missing rows count as zero).", "quantifier": "all valid CSR pairs and scalars", "why_tests_cant": "merging of arbitrary patterns", "anchors": ["src/CrsMatrix.h: operatorPlus, operator+=, sum"]}
{"id": "C14", "title": "CSR well-formedness is preserved", "statement": "Every constructor and algebraic operation of CrsMatrix returns a matrix that passes checkValidity: row pointers start at 0, never decrease, end at the number of stored values, and column indices are in range.", "quantifier": "all operation sequences starting from constructors", "why_tests_cant": "histories are unbounded", "anchors": ["src/CrsMatrix.h: checkValidity and all operations"]}
{"id": "C15", "title": "Coordinate constructor of CSR", "statement": "CrsMatrix built from (row, column, value) lists represents the sum of the given entries. (Fails in general: rows are counted instead of entries; holds when every row up to the last has exactly one entry.)", "quantifier": "all coordinate lists", "why_tests_cant": "all patterns of rows with 0, 1 or many entries", "anchors": ["src/CrsMatrix.h: CrsMatrix(SizeType, SizeType, rows, cols, values)"]}
{"id": "C16", "title": "CSR external (Kronecker) product", "statement": "externalProduct(B,A,nout,signs,order) is entrywise the Kronecker product of A with the identity of dimension nout (in the chosen order) with the fermion signs, and externalProduct(C,A,B,...) the Kronecker product of A and B.", "quantifier": "all valid CSR matrices, dimensions, sign vectors and both orders", "why_tests_cant": "index arithmetic over unbounded sizes", "anchors": ["src/CrsMatrix.h: externalProduct"]}
{"id": "C17", "title": "Matrix predicates decide what they say", "statement": "isHermitian, isDiagonal, isTheIdentity and isZero on CrsMatrix and Matrix return true exactly when the represented matrix has the property. (isTheIdentity on CrsMatrix misses absent diagonal entries.)", "quantifier": "all matrices", "why_tests_cant": "all matrices", "anchors": ["src/CrsMatrix.h: isHermitian, isDiagonal, isTheIdentity, isZero", "src/Matrix.h: isHermitian, isTheIdentity"]}
{"id": "C18", "title": "CSR text round trip", "statement": "Printing a valid nonempty CrsMatrix with operator<< and reading it back with operator>> restores the same rows, columns, row pointers, columns and values.", "quantifier": "all valid nonempty CSR matrices", "why_tests_cant": "all matrices", "anchors": ["src/CrsMatrix.h: operator<<, operator>>"]}
{"id": "C19", "title": "Dense matrix algebra", "statement": "Matrix element access is a bijection between (row,col) and storage; transpose, conjugate transpose, +=, -=, scalar and matrix products, matrix-vector product and outer product equal their mathematical definitions.", "quantifier": "all shapes and entries", "why_tests_cant": "unbounded shapes", "anchors": ["src/Matrix.h"]}
{"id": "C20", "title": "Sparse vector canonicalisation", "statement": "SparseVector::sort leaves the represented vector unchanged (up to entries of norm below the threshold), with strictly increasing indices, and scalarProduct of two sorted vectors equals the dense Hermitian product. isOne says whether at most one value is not small, so also for a vector of zeros. operator== compares indices and values of sorted vectors, but only as far as the right-hand side goes.", "quantifier": "all sparse vectors with arbitrary duplicate and unsorted entries", "why_tests_cant": "all index multisets", "anchors": ["src/SparseVector.h: sort, scalarProduct, add, operator-="]}
{"id": "C21", "title": "Sparse row accumulation", "statement": "SparseRow add/finalize and matrixVectorProduct give the sum over repeated columns, and finalize emits each column at most once in increasing order with the summed value.", "quantifier": "all sequences of add calls", "why_tests_cant": "histories of adds", "anchors": ["src/SparseRow.h", "src/SparseRowCached.h"]}
{"id": "C22", "title": "Indirect sort", "statement": "Sort::sort(x,iperm) leaves x sorted, iperm a permutation of 0..n-1, and new x[i] = old x[iperm[i]].", "quantifier": "all vectors", "why_tests_cant": "all vectors", "anchors": ["src/Sort.h"]}
{"id": "C23", "title": "Permutation enumeration", "statement": "Starting from the identity and calling increase until it returns false, Permutations visits every permutation of 0..n-1 exactly once, in lexicographic order.", "quantifier": "all n", "why_tests_cant": "n! states for each n", "anchors": ["src/Permutations.h: ctor, increase"]}
{"id": "C24", "title": "Tuple enumeration by sum", "statement": "SumDecomposition(total,sum) lists every tuple of `total` natural numbers whose sum is `sum`, each exactly once.", "quantifier": "all total and sum", "why_tests_cant": "unbounded", "anchors": ["src/SumDecomposition.h"]}
{"id": "C25", "title": "Index packing", "statement": "PackIndices(n): pack and unpack are mutually inverse between indices and (x<n, y) pairs.", "quantifier": "all n >= 1 and indices", "why_tests_cant": "all values", "anchors": ["src/PackIndices.h"]}
{"id": "C26", "title": "String split", "statement": "split(tokens,str,delims) returns exactly the maximal runs of non-delimiter characters in order, so no token is empty or contains a delimiter, and joining tokens free of delimiters with delimiters then splitting returns the tokens.", "quantifier": "all strings and delimiter sets", "why_tests_cant": "all strings", "anchors": ["src/PsimagLite.cpp: split"]}
{"id": "C27", "title": "Integer helpers", "statement": "log2Integer(x) is the number of binary digits of x; integerDivision(a,b) returns the exact quotient and throws when b does not divide a; isAnInteger accepts exactly the nonempty digit strings; atoi reads back every int written in decimal and throws exactly when some character is neither a digit nor a sign.", "quantifier": "all integers / strings", "why_tests_cant": "all values", "anchors": ["src/PsimagLite.cpp: log2Integer, integerDivision, atoi, isAnInteger, isAfloat"]}
{"id": "C28", "title": "Chain geometry connector handles", "statement": "For LongChain with open boundaries, connected holds exactly between consecutive sites, it is symmetric and irreflexive, and the connection handle is a bijection between connected pairs (i<j) and 0..getVectorSize-1. With periodic boundaries the handle is not injective (violated: the two bonds at site 0 share handle 0), and an unsupported chain option is not rejected.", "quantifier": "all lengths, distances, both boundary conditions", "why_tests_cant": "unbounded lengths", "anchors": ["src/Geometry/LongChain.h: handle, getVectorSize, connected"]}
{"id": "C29", "title": "Ladder geometry connector handles", "statement": "For Ladder, connected holds exactly between neighbouring sites in x or y (with wrap-around where periodic), it is symmetric and irreflexive, and in each direction handle maps the connected pairs of that direction injectively into 0..getVectorSize(dir)-1 and onto it. The one exception to onto-ness is two periodic columns, where the table has unused entries.", "quantifier": "all ladder sizes, leg counts, open/periodic", "why_tests_cant": "unbounded", "anchors": ["src/Geometry/Ladder.h: handle, getVectorSize, connected, calcDir"]}
{"id": "C30", "title": "Star geometry connector handles", "statement": "For Star, handle is a bijection between bonds and 0..linSize-2; every bond touches the centre.", "quantifier": "all sizes", "why_tests_cant": "unbounded", "anchors": ["src/Geometry/Star.h"]}
{"id": "C31", "title": "Ladder with bath", "statement": "LadderBath with an even number of cluster sites: every site belongs to exactly one of cluster and bath, every cluster site has exactly BathSitesPerSite bath sites, connected is symmetric and irreflexive, connects a bath site to its cluster site only, and handles enumerate the connections of each direction. With an odd number of cluster sites this is violated: a handle falls outside the table and a cluster site has no bath.", "quantifier": "all cluster sizes and bath sites per site", "why_tests_cant": "unbounded", "anchors": ["src/Geometry/LadderBath.h"]}
{"id": "C32", "title": "System/environment split", "statement": "Geometry::split returns S, X, Y, E such that every site appears exactly once, for single-site blocks, an even number of blocks, three blocks, or allInSystem; it throws exactly when blocks of more than one site do not divide the lattice into at least three. In the remaining cases (an odd number, at least five, of blocks of two or more sites) it is violated: the middle site is returned both in the system and in the environment.", "quantifier": "all lattice sizes and block sizes", "why_tests_cant": "unbounded", "anchors": ["src/Geometry/Geometry.h: split"]}
{"id": "C33", "title": "K2NiF4 orbital indexing", "statement": "KTwoNiFFour: index maps (site, orbital) pairs bijectively onto 0..matrixRank-1; two sites are connected exactly when they are a copper and one of its four oxygens or two oxygens of different kinds sharing a copper; connections are symmetric, irreflexive and never trip an assertion; every connection has one direction and one sign, the same from both ends.", "quantifier": "all sizes", "why_tests_cant": "unbounded", "anchors": ["src/Geometry/KTwoNiFFour.h: index, matrixRank, findTypeOfSite"]}
{"id": "C34", "title": "Lattice symmetries", "statement": "Ladder translate is a bijection of the sites that composes additively along x and preserves connectivity under periodic boundaries; findReflection is an involution that preserves connectivity.", "quantifier": "all lattice sizes, shifts and sites", "why_tests_cant": "unbounded", "anchors": ["src/Geometry/Ladder.h: translate, findReflection", "src/Geometry/LongChain.h: findReflection, translate"]}
{"id": "C35", "title": "Connector matrices are Hermitian", "statement": "With several orbitals, the connector value returned for (i,edof1,j,edof2) is the conjugate of the one for (j,edof2,i,edof1), equals the entry of the input matrix of that bond (larger site first) times the sign of the bond, and is zero for unconnected pairs. With one orbital the value is the input number in both directions: this is Hermitian for real numbers and not for complex ones.", "quantifier": "all chains, ladders and K2NiF4 lattices of any size and boundary, all sites, orbitals and connector data the constructor accepts", "why_tests_cant": "all data", "anchors": ["src/Geometry/GeometryTerm.h: operator(), calcValue", "src/Geometry/GeometryDirection.h: operator()"]}
{"id": "C36", "title": "Prefix (Karva) expression evaluation", "statement": "ExpressionForAST evaluates the level-order listing of any well-formed expression tree, followed by arbitrary unused symbols, to the value of the tree; and it only ever returns a value when its symbols start with such a listing, so an incomplete expression is never evaluated.", "quantifier": "all expression trees of any depth and arity and all trailing tokens", "why_tests_cant": "trees of unbounded depth", "anchors": ["src/AST/ExpressionForAST.h", "src/AST/Tree.h", "src/AST/Node.h"]}
{"id": "C37", "title": "Predicate language", "statement": "PredicateAwesome evaluates a comma-separated list of '&'-joined comparisons as the OR of the ANDs of the comparisons, for every assignment of the variables, and hands the '@' options to the specification object in order. A comparison is split at the leftmost operator, the longest at its place. This needs variable names that occur neither inside operators, other symbols, nor printed values: a name that occurs in its own printed value (such as e for real values) makes the evaluation loop for ever, and names are replaced even inside operators (findings).", "quantifier": "all predicate strings built from the grammar, all values", "why_tests_cant": "all strings and values", "anchors": ["src/PredicateSimple.h", "src/PredicateAnd.h", "src/PredicateAwesome.h"]}
{"id": "C38", "title": "Operator expressions", "statement": "CanonicalExpression of a sum of products, each product having at least one operator, gives the sum over the terms of the product of its numbers (real, imaginary or a parenthesised arithmetic expression) times the product of its operators in order, whatever the result object held before. A term that is a plain number is silently dropped, and if the first term has no operator the old contents of the result are added to the value.", "quantifier": "all expressions with one level of parentheses, all operator values, all previous results", "why_tests_cant": "all expressions", "anchors": ["src/QuasiCanonical.h: QuasiCanonical, scalarIndex, isPureComplex, isRealScalar, simpleArithmetics", "src/CanonicalExpression.h: operator(), procCanonicalTerm, procCanonicalFactor"]}
{"id": "C39", "title": "Operator spec parsing", "statement": "OneOperatorSpec reads label, degree of freedom and transpose mark back from the text form for every valid combination, throws exactly for a '?' that is not followed by an integer, and takes the bracketed site out of a name; unmatched brackets are rejected. (Brackets in the wrong order are not rejected: finding.)", "quantifier": "all labels, dofs, sites", "why_tests_cant": "all strings", "anchors": ["src/OneOperatorSpec.h"]}
{"id": "C40", "title": "Minimal standard generator", "statement": "For every seed RandomForTests runs for ever without integer overflow, its state stays in 1..2^31-2 and the numbers returned are strictly between 0 and 1. From a seed in that range the k-th state is 16807^k times the seed modulo 2^31-1, two states are equal exactly when the number of calls between them is a multiple of 2^31-2, and every number from 1 to 2^31-2 comes up.", "quantifier": "all seeds and all numbers of calls", "why_tests_cant": "2^31 states and unbounded runs", "anchors": ["src/RandomForTests.h"]}
{"id": "C41", "title": "Mersenne twister", "statement": "For every seed and every number of calls, MersenneTwister returns the scrambled words of the infinite 624-word recurrence started from the seed, independently of what the uninitialised array held; scrambling is a bijection of 32-bit words; operator() is in [0,1]. The constructor with a rank gives ranks 0 and 1 the same stream, and the words made from the seed are never those of the published algorithm.", "quantifier": "all seeds and numbers of calls", "why_tests_cant": "unbounded stream, 2^32 seeds", "anchors": ["src/MersenneTwister.cpp"]}
{"id": "C42", "title": "Bisection", "statement": "RootFindingBisection returns only points inside the bracket where |f| is below the tolerance and refuses a bracket without a sign change. For every continuous function with a sign change and every positive tolerance there is an iteration limit from which on it succeeds; for a function with Lipschitz constant L every positive limit n with L(b-a) < tol*2^n is enough.", "quantifier": "all functions, brackets, tolerances", "why_tests_cant": "all functions", "anchors": ["src/RootFindingBisection.h"]}
{"id": "C43", "title": "Akima spline", "statement": "For at least three points with strictly increasing abscissas AkimaSpline is built, passes through every data point, is differentiable with continuous derivative on the whole data range, has at each point the weighted mean of slopes that defines Akima's method as its derivative, and reproduces straight lines. Points outside the data range, vectors of different lengths and fewer than three points are refused.", "quantifier": "all strictly increasing data sets with at least 3 points", "why_tests_cant": "all data sets", "anchors": ["src/AkimaSpline.h"]}
{"id": "C44", "title": "Chebyshev polynomials", "statement": "ChebyshevFunction and ChebyshevFunctionExplicit both compute the Chebyshev polynomial T_m for every m >= 0 and every argument, and so agree.", "quantifier": "all degrees and real arguments", "why_tests_cant": "unbounded degree", "anchors": ["src/ChebyshevFunction.h", "src/ChebyshevFunctionExplicit.h"]}
{"id": "C45", "title": "Fermi function", "statement": "fermi(x)+fermi(-x)=1, 0<=fermi<=1, fermi never increases, differs from 1/(1+exp(x)) by at most exp(-50) and equals it between -50 and 50, fermiPrime is its derivative except at +-50 (where there is a jump), and logfermi differs from the logarithm of the Fermi function by at most exp(-20).", "quantifier": "all real arguments", "why_tests_cant": "all reals", "anchors": ["src/Fermi.h"]}
{"id": "C46", "title": "Memory image relocation", "statement": "Duplicating a memory image: if the registered chunks were pushed in address order, lie in the source block and do not overlap, the copy holds every chunk at its own place, without overlap and with the same alignment modulo 8, and every registered pointer into a chunk is relocated to the same byte of the copied chunk; chunks out of order or overlapping are refused. An image saved to disk and loaded again is byte for byte the image relocated for the old base address.", "quantifier": "all memories, chunk lists, pointers and destination addresses", "why_tests_cant": "all heaps", "anchors": ["src/MemResolv.h: deepCopy, adjustPointer, correctionForHoles, findSizes"]}
{"id": "C47", "title": "Input file: repeated labels", "statement": "For every well formed InputNg file (lines label=value, label n numbers, blank lines, comment lines not directly after a list of numbers, expansion lines !A$iB; no label both as text and as list) and every sequence of readline/read calls, the k-th moving read of a label that occurs n times returns occurrence min(k,n), reads that do not move return the same one again, calls on other labels do not interfere, and a label that does not occur throws and changes nothing.", "quantifier": "all files of any length and all read histories", "why_tests_cant": "histories", "anchors": ["src/InputNg.h: Writeable, Readable, MyCompare"]}
{"id": "C48", "title": "Input label order is a strict weak order", "statement": "On labels with no @, or with a number after it, the comparison InputNg uses as map order never throws and is a strict weak ordering, and orders repeated labels by their number; other text after @ makes it throw.", "quantifier": "all triples of labels", "why_tests_cant": "all strings", "anchors": ["src/InputNg.h: MyCompare"]}
{"id": "C49", "title": "Ainur variables", "statement": "AinurState: reading a variable returns the last value assigned to it, undeclared assignment and double declaration fail, and assignments to one variable never change another.", "quantifier": "all declaration/assignment/read histories", "why_tests_cant": "histories", "anchors": ["src/Ainur/AinurState.h: declare, assign, readValue"]}
{"id": "C50", "title": "Ainur macro expansion", "statement": "If every value is text and macros \\name followed by a character that is not part of a name, expansion either throws or gives every variable that is not marked as unused the full (repeated) expansion of its value, and leaves variables without macros and marked variables unchanged; it never throws if all macros are declared and nest without cycles at most 101 deep, and always throws if a macro is undeclared or needs itself. (A macro at the end of a value is lost; two adjacent macros are read as one.)", "quantifier": "all states, values and macro tables", "why_tests_cant": "all strings", "anchors": ["src/Ainur/AinurState.h: expandMacros"]}
{"id": "C51", "title": "Keyed storage round trip", "statement": "After any sequence of calls that make groups and write values with IoNg on a new file, reading a name gives the value a plain map from names to values has for it, and throws if it has none; values of other names are not affected. Vectors of vectors, pairs and entries written one at a time are read back as well. (Fails for empty vectors and overwritten complex vectors, which are lost, and for values in groups that do not exist, which are lost without an exception.)", "quantifier": "all histories of writes and reads", "why_tests_cant": "histories", "anchors": ["src/Io/IoNgSerializer.h", "src/Io/IoNg.h"]}
{"id": "C52", "title": "Crash detection canary", "statement": "If a program makes an IoNg file and dies before its first flush or close, at any moment, every later attempt to open that file for reading is refused; a file that was flushed or closed is accepted and has all values. (Crashes after a flush, after reopening for writing, and files opened again by a reader that was closed are not detected; a file made with ACC_EXCL loses all values.)", "quantifier": "all crash points in all histories", "why_tests_cant": "crash points", "anchors": ["src/Io/IoNgSerializer.h: writeCanary, readCanary, open, close, flush"]}
{"id": "C53", "title": "Boolean vector storage", "statement": "The byte encoding used to store std::vector<bool> decodes to the same vector.", "quantifier": "all boolean vectors shorter than 2^32", "why_tests_cant": "all vectors", "anchors": ["src/Io/IoNgSerializer.h: convertFromBoolean, convertToBoolean, encodeBooleanSize, decodeBooleanSize"]}
{"id": "C54", "title": "Stack storage order", "statement": "Writing a stack with IoNg and reading it back restores the same stack order (the written one is emptied), and Stack.h text output round-trips.", "quantifier": "all stacks", "why_tests_cant": "all stacks", "anchors": ["src/Io/IoNgSerializer.h", "src/Stack.h"]}
{"id": "C55", "title": "Blocked matrix multiply tiling", "statement": "GemmR splits the result into tiles that are non-empty, pairwise disjoint, in bounds and cover the whole matrix, so every element of C is updated exactly once with the full-length inner product, for every schedule of tiles.", "quantifier": "all positive dimensions, block sizes and schedules", "why_tests_cant": "unbounded", "anchors": ["src/GemmR.h"]}
{"id": "C56", "title": "Lanczos recurrence", "statement": "In exact arithmetic one Lanczos step keeps the new vector orthogonal to the previous two, and the vectors satisfy H V = V T with the stored tridiagonal coefficients; without breakdown all stored vectors are orthonormal.", "quantifier": "all Hermitian matrices, start vectors and step counts", "why_tests_cant": "unbounded", "anchors": ["src/LanczosVectors.h: oneStepDecomposition", "src/LanczosCore.h: decomposition"]}
{"id": "C57", "title": "Chebyshev moments", "statement": "ChebyshevSolver's recurrence yields y_n = T_n(H')y_0, and the even and odd moments it stores equal <y0|T_2n y0> and <y0|T_2n+1 y0>.", "quantifier": "all Hermitian matrices, vectors and step counts", "why_tests_cant": "unbounded", "anchors": ["src/ChebyshevSolver.h: oneStepDec, decomposition"]}
{"id": "C58", "title": "Tridiagonal dense form", "statement": "buildDenseMatrix gives the symmetric tridiagonal matrix with the stored diagonals and zeros elsewhere.", "quantifier": "all sizes >= 1", "why_tests_cant": "unbounded", "anchors": ["src/TridiagonalMatrix.h: buildDenseMatrix"]}
{"id": "C59", "title": "Runge-Kutta order", "statement": "RungeKutta::solve integrates y' = p(t) exactly for polynomials of degree at most 3, multiplies by the degree-4 Taylor polynomial of exp per step for y' = a y, and returns exactly N states with the first one equal to the initial state. A final time a step or more before the initial time is undefined behaviour, not an exception. For every equation with Lipschitz constants L (state) and K (time) whose solution has slope at most M, the state after time T with step h is within 3/2 (K + L M) h T exp(L T) of the solution, so smaller steps converge; and any linear quantity the equation leaves unchanged is unchanged in every returned state, for any step.", "quantifier": "all N, steps, coefficients, right-hand sides with Lipschitz constants, normed spaces", "why_tests_cant": "unbounded", "anchors": ["src/RungeKutta.h: solve"]}
{"id": "C60", "title": "Solver parameter lookup", "statement": "For an indexed solver parameter the value used is the one with the largest index not above the requested one, then the unindexed one, then the default.", "quantifier": "all input files and indices", "why_tests_cant": "all inputs", "anchors": ["src/ParametersForSolver.h: rabbitHole, bunnie, hare"]}
{"id": "C61", "title": "Option sets", "statement": "Options::set accepts exactly comma separated lists of registered options and isSet tells membership; LabelDisabled reports exactly the labels that were disabled.", "quantifier": "all option lists", "why_tests_cant": "all", "anchors": ["src/Options.h", "src/LabelDisabled.h"]}
{"id": "C62", "title": "Spectral function accumulation", "statement": "ContinuedFractionCollection::plot returns the pointwise sum of the member plots on their common grid and rejects mismatched grids.", "quantifier": "all collections", "why_tests_cant": "all", "anchors": ["src/ContinuedFractionCollection.h: plot, accumulate"]}
{"id": "C63", "title": "Linear prediction", "statement": "LinearPrediction::predict(p) appends p values each satisfying the linear recurrence on the preceding ones and never changes existing values; an exact recurrence is continued exactly.", "quantifier": "all series, coefficients and lengths", "why_tests_cant": "unbounded", "anchors": ["src/LinearPrediction.h: predict, computeA, computeB"]}
{"id": "C64", "title": "Bra and ket labels", "statement": "GetBraOrKet recognises every documented vector label, bare, as a ket or as a bra, with its kind and numbers, and rejects labels that start with an unknown letter. (A missing number or trailing text is accepted, and a ket around '<' reads past the end of the string: findings.)", "quantifier": "all label strings", "why_tests_cant": "all strings", "anchors": ["src/GetBraOrKet.h"]}
{"id": "C65", "title": "Ainur vectors, matrices and ellipsis", "statement": "Texts [a, b, ...] with white space anywhere convert to the vector of their entries in order whatever the vector was before, '[a, ...]' sets every element of a sized vector and '[a, ...xN]' gives N>0 copies; [[..],[..]] converts to the matrix with these rows, ragged rows are refused. (...x0 is undefined behaviour.)", "quantifier": "all texts, entries, lengths and previous values", "why_tests_cant": "all", "anchors": ["src/Ainur/AinurConvert1.cpp"]}
{"id": "C66", "title": "Text replacement and basename", "statement": "replaceAll(str,from,to) terminates and replaces the occurrences of a nonempty `from` from left to right without rescanning inserted text (even when `to` contains `from`); basename returns what follows the last slash.", "quantifier": "all strings", "why_tests_cant": "all strings; termination when the replacement contains the pattern", "anchors": ["src/PsimagLite.cpp: replaceAll, basename"]}
{"id": "C67", "title": "Fringe and substitute sites", "statement": "fringe(i,smax,emin) holds for a system (environment) site exactly when it is connected to a site beyond smax (below emin), as HowToConstructANewGeometry.txt documents, and the substitute site of an environment fringe site keeps its place relative to the system. Open chains satisfy it; two-leg ladders do except when the system is the first site only; periodic chains and four-leg ladders violate it.", "quantifier": "all lattice sizes, all splits (smax, emin), all sites", "why_tests_cant": "unbounded sizes and splits", "anchors": ["src/Geometry/LongChain.h: fringe, getSubstituteSite", "src/Geometry/Ladder.h: fringe", "src/Geometry/HowToConstructANewGeometry.txt"]}
{"id": "C68", "title": "Honeycomb lattice", "statement": "The honeycomb connection test never fails an assertion, is symmetric and irreflexive, and gives both ends of a bond one direction; with open columns (and rows in multiples of four when rows are periodic) the bonds are the coded list, so each site has at most one bond per direction. A system site is in the fringe exactly when it has a neighbour in the environment. Defects shown: half of the sites never have a Y bond; periodic columns give some sites two Y bonds and lose the X bonds across the boundary; an environment site whose only system neighbour is the last system site is left out of the fringe.", "quantifier": "all lattice sizes, boundary flags, pairs of sites and splits", "why_tests_cant": "unbounded sizes", "anchors": ["src/Geometry/Honeycomb.h: connected, calcDir, fringe"]}
{"id": "C69", "title": "Ladder with diagonals", "statement": "On an open ladder with diagonals (LadderX) two sites are connected exactly when they differ by at most one row and one column; handles along rows and columns enumerate the connections for any number of legs; for two legs the handles of each diagonal direction are distinct and in range. Defects shown: the vectors asked for the diagonals are twice as long as needed, three legs make two diagonals share a handle, and periodic columns make two bonds of a row share one.", "quantifier": "all ladder sizes, all pairs of sites", "why_tests_cant": "unbounded sizes", "anchors": ["src/Geometry/LadderX.h: connected, calcDir, handle, getVectorSize"]}
{"id": "C70", "title": "Text files: labels, instances and vectors", "statement": "In the text format of IoSimple, reading a label finds the value after the given occurrence of it, a missing label throws, counting a label gives the number of its occurrences, and numbers and vectors that were written are read back. Defects shown: LAST_INSTANCE rereads the file wrongly when not at its beginning and for vectors returns wrong data, a level for vectors is not respected, an empty vector swallows what follows, a value at the end of the file without end of line is not found, and writing a number on a rank other than 0 dereferences a null pointer.", "quantifier": "all file contents, labels, instances and vectors", "why_tests_cant": "unbounded contents and lengths; the flags of the streams differ at the end of the file", "anchors": ["src/Io/IoSimple.h: Out::write, printVector, In::readline, advance, count, read"]}
{"id": "C71", "title": "Reading numbers and complex numbers", "statement": "A decimal number read from text has the value it denotes, in all four readers of complex numbers (canonical expressions, Ainur, input files, prefix expressions); text without digits or with other characters is refused by the checked conversion; canonical expressions read xi and ix as imaginary, Ainur reads aib as a+ib, input files read back (a,b) as the stream operator writes it, prefix expressions read x+yi. Defects shown: characters after a number are ignored if numbers have such characters; -i is refused and 1i2 read as 12i in canonical expressions; Ainur refuses 2i and loses the sign of 1-i2, and 2i3 means another number than in canonical expressions; prefix expressions lose the sign in 1-2i (unless the real part is negative), read -2i as -2, i as 0 and 1+-2i as 1+2i.", "quantifier": "all decimal numbers with sign, fraction and exponent of any length; all texts for the conversions that check", "why_tests_cant": "all ways of writing a number; the reading of one part depends on signs elsewhere in the text", "anchors": ["src/PsimagLite.cpp: atof, isAfloat", "src/CmplxOrReal.h: CpmlxOrReal", "src/Ainur/AinurComplex.hh: toComplex", "src/InputNg.h: stringToComplexOrReal, stringToReal", "src/Complex.h: stringToComplex", "src/AST/PlusMinusMultiplyDivide.h: setInputRealOrComplex"]}
{"id": "C72", "title": "Connections of any range", "statement": "With the geometry LongRange the value of a connection between two sites and orbitals is the one given in the input: the last value listed for the pair, or zero, in the compact form (three columns for one orbital, five for several); the entry of the matrix in the full form; the given number for pairs in increasing order, and zero otherwise, with one number for all. Missing labels, unknown options, a matrix for another number of sites, and indices that are not real integers are refused. Translations are additions modulo the number of sites and end; reflections are involutions that keep distances. Defects shown: a negative index or one out of range is used; the size of the full matrix is only checked by dividing its rows, so a wrong size is accepted or read out of range; the lower triangle is not filled in.", "quantifier": "all numbers of sites and orbitals, all matrices, all lists of entries", "why_tests_cant": "any number of sites, orbitals and entries, with repetitions", "anchors": ["src/Geometry/LongRange.h: LongRange, reinterpretMatrix, complexToInteger, setEntangler, translate, findReflection", "src/Geometry/GeometryTerm.h: cacheValues, operator()", "src/Geometry/GeometryDirection.h: operator()"]}
{"id": "C73", "title": "Arithmetic of vectors", "statement": "Assignments of vector expressions (v <= a*v1 + b*v2 and the other supported forms) give, position by position, the value of the expression, and leave other vectors alone, even if the target is one of the operands of a sum; += , -=, *=, /= do the same. The product of two vectors conjugates the second and scalarProduct the first, both refuse different sizes; the norm is the Euclidean norm; sum is the sum; indexOrMinusOne is the first position or -1. Defects shown: an expression that multiplies by an element of its own target goes wrong; shorter operands are read out of range; the product of a vector of vectors and a vector never ends; basenameOf cuts at the wrong place unless stem and extension happen to have equal lengths; indexOrMinusOne does not fit an int for large vectors.", "quantifier": "all vectors of any size over any commutative ring, all supported expressions, all assignments of names to operands", "why_tests_cant": "any size and any aliasing between target and operands", "anchors": ["src/Vector.h: operator<=, operator+=, operator-=, operator*=, operator/=, operator*, scalarProduct, norm, sum, indexOrMinusOne, basenameOf"]}
{"id": "C74", "title": "Text of vectors, pairs and matrices", "statement": "What operator<< writes for numbers, pairs, vectors (nested to any depth), vectors of pairs and matrices is read back by operator>> from any place of a stream, whatever the variable held before (for matrices: no rows or the same number of rows), and the stream is left where the next item can be read. A negative size of a vector, a matrix text without dimensions, and a matrix with another number of rows are refused. mathematicaPrint writes the list of rows; printNonZero the elements that are not zero. Defects shown: texts that end too early are read silently, with old elements left in place; dimensions whose product does not fit 64 bits lead to writes out of range; printNonZero reads out of range with more rows than columns.", "quantifier": "all vectors of less than 2^31 elements, all matrices within the memory limit, all white space and all texts before and after", "why_tests_cant": "any nesting, sizes and contents, at any place of a stream", "anchors": ["src/Vector.h: operator<<, operator>>", "src/Matrix.h: operator<<, operator>>, mathematicaPrint, printNonZero", "src/PsimagLite.cpp: operator<<, operator>>"]}
{"id": "C75", "title": "Energies and states of the Lanczos solver", "statement": "For a Hermitian matrix and a start vector whose first powers (H^i v) are linearly independent, computeOneState gives a normalized vector of the space spanned by those powers, whose expectation value is the energy given, and H z - E z is orthogonal to that space; the energy of the ground state is the lowest expectation value of that space, no energy is below a lower bound of the matrix, and with as many steps as rows energy and vector are exact. computeAllStatesBelow gives the lowest states in order, orthogonal to each other. Defects shown: for the ground state no eigenvalue is compared, so that the tolerance has no effect and a matrix of more than four rows gets minSteps+1 steps and, whenever one more power is independent, an energy strictly above the lowest eigenvalue; a state beyond the number of steps is read out of range, and computeAllStatesBelow accepts one state too many; the vector given is added to, not set; the steps of one run limit later runs; a start vector that is an eigenvector can be refused.", "quantifier": "all Hermitian matrices, real or complex, of any size, all start vectors, all step limits and tolerances", "why_tests_cant": "any matrix, size and start vector", "anchors": ["src/LanczosSolver.h: computeOneState, computeAllStatesBelow", "src/LanczosCore.h: decomposition"]}
{"id": "C76", "title": "Broadcasts and reductions over MPI", "statement": "With correct MPI calls underneath, bcast gives every rank the number, pair, vector or vector of vectors of the root, whatever sizes the vectors of the other ranks had before; reduce gives the root the combination of the vectors of all ranks, position by position, and leaves those of the other ranks as they were; allReduce gives it to every rank; sums are right for numbers, complex numbers and unsigned integers up to a multiple of the word. Defects shown: bcast of complex vectors does not send the size, bcast of a vector of vectors does not send their number and cuts sizes to 32 bits, the product of complex numbers is taken part by part, the maximum of unsigned integers is taken as of signed ones, and allReduce of one number of 64 bits overwrites memory. Vectors of 2^31 or more numbers (half as many complex ones) are refused by reduce and allReduce.", "quantifier": "all numbers of ranks, all roots, all contents and sizes of the data of each rank", "why_tests_cant": "any number of ranks and any data; the defects need large sizes or differing sizes", "anchors": ["src/MpiYes.h: bcast, reduce, allReduce", "src/MpiYes.cpp"]}
{"id": "C77", "title": "Numbers, matrices and maps of input files", "statement": "After any calls of the reader, readline of a number converts the text that readline of a string would give and moves on in the same way, and moves nothing if it throws; integers in the range of int are read as written; read of a matrix takes the next list of its label, as read of a vector would, and gives the matrix whose sizes are the first two numbers and whose elements follow row by row, refuses lists with too few elements and matrices that already have another number of rows, and later calls go on from there; read of a map sets exactly the entries label[key]=value. Defects shown: negative sizes become huge, numbers over 2^31 are undefined even for long int and SizeType, labels that contain the one asked for, entries given twice and brackets in the wrong order give wrong keys.", "quantifier": "all well formed input files, all sequences of earlier calls, all matrices and maps", "why_tests_cant": "any file, any history of calls, any sizes", "anchors": ["src/InputNg.h: Readable::readline, read"]}
{"id": "C78", "title": "Grammar of Ainur files", "statement": "A file of declarations, definitions and assignments, each followed by a semicolon, with any white space and complete comments around their parts, is read as exactly these statements in their order, and later reads give the values that these statements gave; if a statement is refused the file is. A file with a character that is not allowed is refused. In a file that is accepted all text but at most two characters at the end is statements, white space and comments. Defects shown: an assignment to a name such as a_b declares a variable _b of type a instead, without a last semicolon the parser runs past the end, up to two stray characters are ignored, and a comment after a value becomes part of it.", "quantifier": "all files, all statements, all white space and comments, all later reads", "why_tests_cant": "any text, any number of statements, any layout", "anchors": ["src/Ainur/AinurSpirit1.cpp: Ainur::Ainur, Action, Action3", "src/Ainur/AinurLexical.h: AinurLexical", "src/Ainur/AinurSpirit.h: allEmpty"]}
{"id": "C79", "title": "Connections broken by a split", "statement": "maxConnections is at least the number of connections between the first k sites and the others, for every k: for open chains of nearest neighbours, periodic chains of any range, ladders that are periodic along their legs or not periodic along their rungs, stars, the planes of K2NiF4 and connections of any range, where the split in the middle reaches it. The number of a geometry is the largest one of its terms. It is too small for open chains of longer range, ladders that are periodic along their rungs only, ladders with diagonals and ladders with baths.", "quantifier": "all sizes, all splits, all ranges of periodic chains", "why_tests_cant": "any number of sites and any split", "anchors": ["src/Geometry/Geometry.h: maxConnections", "src/Geometry/LongChain.h: maxConnections", "src/Geometry/Ladder.h: maxConnections", "src/Geometry/LadderX.h: maxConnections", "src/Geometry/LadderBath.h: maxConnections", "src/Geometry/Star.h: maxConnections", "src/Geometry/KTwoNiFFour.h: maxConnections", "src/Geometry/LongRange.h: maxConnections"]}
{"id": "C80", "title": "Eigenvalues, exponentials, inverses, singular values and rotations of matrices", "statement": "Whatever LAPACK library does what its documentation says, diag of a square matrix gives the ascending eigenvalues and orthonormal eigenvectors of the Hermitian matrix with the same upper triangle, or throws when LAPACK does not converge; a letter other than N, V, n or v throws, and so does a matrix with more rows than columns. exp of a real symmetric matrix is its exponential; for complex matrices exp and expIpi give exp(iH) and exp(i pi H), transposed. inverse gives the inverse of a square matrix and throws if there is none. Svd gives a singular value decomposition for the letters A and S if LAPACK converges, and throws for other letters. rotate gives the adjoint of the transformation times the matrix times the transformation. A matrix with more columns than rows is not refused by diag or inverse, empty complex matrices and tall matrices given to inverse are undefined behaviour, and Svd does not throw if LAPACK does not converge.", "quantifier": "all matrices, sizes and letters, and all LAPACK libraries that do what the documentation says", "why_tests_cant": "a test uses one LAPACK library and a few matrices; here the sizes of work arrays, leading dimensions and letters must be right for every size", "anchors": ["src/Matrix.cpp: diag", "src/Matrix.h: expComplexOrReal, exp, expIpi, inverse, rotate", "src/Svd.h: Svd::operator()"]}
{"id": "C81", "title": "Eigenvalues of tridiagonal matrices, and Lanczos with any LAPACK", "statement": "Whatever LAPACK library does what its documentation says, diag(eigs, n) of a tridiagonal matrix of two rows or more gives the ascending eigenvalues of the block of its first n rows, or throws when LAPACK does not converge. With such a library the ground state of the Lanczos solver has the energy and the vector that C75 promises. The vector of eigenvalues keeps the size of the matrix: what comes after the n eigenvalues is the old diagonal. A matrix of one row is undefined behaviour.", "quantifier": "all tridiagonal matrices, all n up to their size, all Hermitian matrices and start vectors of the solver, and all LAPACK libraries that do what the documentation says", "why_tests_cant": "a test uses one LAPACK library and a few matrices", "anchors": ["src/TridiagonalMatrix.cpp: diag2", "src/TridiagonalMatrix.h: diag", "src/LanczosSolver.h: computeOneState"]}
{"id": "C82", "title": "Spectral functions from Lanczos", "statement": "A continued fraction built from the tridiagonal matrix of a Lanczos run with k steps has k poles with intensities not below zero, and the sum over the poles of intensity times pole to the power j is the expectation value of the matrix to the power j in the start vector, for all j below 2k. When k is the number of rows of the matrix, or one of the off-diagonal numbers is zero, its value at every z off the real axis is the weight times the element of the inverse of z - isign (Eg - H) in the normalized start vector.", "quantifier": "all Hermitian matrices, start vectors other than zero, numbers of steps, parameters of the solver and of the continued fraction, all z off the real axis, and all LAPACK libraries that do what the documentation says and converge", "why_tests_cant": "a test computes a few matrices and compares a few frequencies within an error", "anchors": ["src/ContinuedFraction.h: ContinuedFraction, set, diagonalize, iOfOmega", "src/LanczosSolver.h: decomposition", "src/TridiagonalMatrix.h: buildDenseMatrix"]}
{"id": "C83", "title": "Geometry from an input file", "statement": "A well formed input file with any number of terms (chains of any range, ladders with or without diagonals or baths, stars, honeycombs and KTwoNiFFour lattices, with one or more orbitals and with constant or specific values) gives the geometry that its lines describe: each term gets its own lines and lists, in the order of the file, and the value between two sites is the number, or the element of the matrix with its sign, that stands in the list of the direction at the place of the bond; it is zero for sites that are not connected, and conjugate in the other order of the sites. A negative number of sites is refused.", "quantifier": "all input files with blank lines, comments and other labels in between, all numbers of sites, terms, orbitals and values, all readers of numbers and matrices, all pairs of sites and orbitals", "why_tests_cant": "tests read a few files with one or two terms and compare a few values", "anchors": ["src/Geometry/Geometry.h: Geometry, operator()", "src/Geometry/GeometryTerm.h: GeometryTerm, cacheValues", "src/Geometry/GeometryDirection.h: GeometryDirection, operator()", "src/InputNg.h: readline, read"]}
{"id": "C84", "title": "Connections of a superblock", "statement": "When the sites after smax and before emin are left out, the value between a site of the system and one of the environment is the value in the lattice closed up over the gap, in both orders of the sites, and sites that are neighbours there count as connected, for open chains of any range for ladders of two legs from which whole rungs are left out, with or without a bath, for ladders of two legs with diagonals and systems of two or more sites, and for KTwoNiFFour lattices from which whole cells are left out after a copper or after the first oxygen of a cell. The superblock of an open chain of nearest neighbours is the shorter chain with the numbers of the gap left out; a star does not change. Sites are connected if one of the terms connects them, and the kind of a connection says on which side each site is.", "quantifier": "all numbers of sites, systems, environments and gaps, all values and numbers of orbitals, all pairs of sites", "why_tests_cant": "a test grows one lattice and looks at some of the sites", "anchors": ["src/Geometry/GeometryTerm.h: operator()(smax, emin, ...), connected", "src/Geometry/Geometry.h: operator(), connected, connectionKind", "src/Geometry/LongChain.h: fringe, getSubstituteSite", "src/Geometry/Ladder.h: fringe, getSubstituteSite", "src/Geometry/Star.h: fringe, getSubstituteSite", "src/Geometry/LadderX.h: fringe, getSubstituteSite", "src/Geometry/LadderBath.h: fringe, getSubstituteSite", "src/Geometry/KTwoNiFFour.h: fringe, getSubstituteSite", "src/Geometry/Honeycomb.h: getSubstituteSite"]}
{"id": "C85", "title": "Matrices from sorted lists of elements", "statement": "A matrix in compressed rows that is made from a list of elements sorted by row, in which no place occurs twice, is well formed, has the elements of each row in the order of the list, and its value at each place is the element given for that place, or zero if there is none. A list that says it is not sorted is refused, and one in which a place occurs twice does not pass the check of validity.", "quantifier": "all lists of elements, all sizes, all places", "why_tests_cant": "a test builds some small matrices and compares their elements", "anchors": ["src/CrsMatrix.h: operator=(VerySparseMatrix)"]}
{"id": "C86", "title": "Small CRS matrix of the examples", "statement": "The product adds the matrix times the second vector to the first one. A matrix that is saved and read again is the same, and what follows in the stream is not touched. Made from a list of coordinates it is right if each of the first rows has one element; if a row has two, elements are lost.", "quantifier": "all sizes, matrices, vectors, lists of coordinates and streams", "why_tests_cant": "the driver makes one random matrix and prints it", "anchors": ["src/SampleCRSMatrix.h: matrixVectorProduct, save, SampleCRSMatrix(ifstream), fillMatrix"]}
{"id": "C87", "title": "Identifiers of runs", "statement": "The identifier of a run is a number followed by the count of its one bits with two digits, and it passes the program that checks identifiers; an identifier in which one bit of the number is changed does not pass. The number is made from the numbers of process and clock and three words of the random generator. If two of these words written after each other do not fit in a long integer the identifier is undefined.", "quantifier": "all process numbers, clocks, seeds, numbers and bits", "why_tests_cant": "a test makes some identifiers; those that overflow depend on the clock", "anchors": ["src/ApplicationInfo.h: runIdInternal, convertToLuint", "examples/checkRunId.cpp: checkRunId", "src/BitManip.h: countKernighan"]}
{"id": "C88", "title": "Messages of programs", "statement": "Whatever the order of messages and signals, the output has the messages of the first thread of the first process, in order, each with the name of its sender and its clock; other threads and processes print nothing. The file of the buffer has exactly the messages between the signal that turned the buffer on and the one that turned it off. A profile prints its beginning and its end once, however often it is ended. A stream of messages that is used again prints what is left of a longer message; the use of memory that is printed while the buffer is active garbles the buffer, and a signal within a line tears it in the buffer but not on the output.", "quantifier": "all histories of calls and signals, all senders, threads, ranks, messages and clocks", "why_tests_cant": "signals arrive at any moment; a test sees one history", "anchors": ["src/ProgressIndicator.h: printline, print, printMemoryUsage, updateBuffer", "src/Profiling.h: Profiling, end"]}
{"id": "C89", "title": "Entries of system files and time", "statement": "Reading a status file gives its text, and the entry of a label is what follows the first occurrence of the label on its line without the blanks before it; a label that does not occur is reported as not found. If a line of the file has 40240 characters or more the reading does not end, and an entry of blanks is the last blank. Differences and sums of times are those of their seconds also with negative microseconds. The vendor of the processor is read from the first line with that label, made short for Intel and AMD.", "quantifier": "all files, labels, entries, blanks, times and names", "why_tests_cant": "the files differ from machine to machine and from moment to moment", "anchors": ["src/MemoryUsage.h: update, findEntry, TimeHandle", "src/MicroArchitecture.h: vendorId, readLabel, extractOther"]}
{"id": "C90", "title": "Minimization stops at the first converged point and says so", "statement": "With any minimizer of GSL, simplex and conjugateGradient return the position of the first state that passes the test of convergence within the iterations allowed, with the number of iterations before it, and otherwise the position after all of them; status() is GSL_SUCCESS exactly in the first case. After an error of GSL simplex throws, conjugateGradient returns minus the counter, and the vector of the caller is untouched. If the minimizer never goes up, the value at the vector left to the caller is never above that at the start. The value returned alone does not tell convergence from failure.", "quantifier": "all minimizers, functions, starting vectors, limits of iterations and errors at any iteration", "why_tests_cant": "a test sees one function and rarely an error of GSL", "anchors": ["src/Minimizer.h: simplex, conjugateGradient, found, status, statusString", "examples/minimizer.cpp"]}
{"id": "C91", "title": "Loops with OpenMP and the deprecated loops do each task once", "statement": "Whatever way the runtime of OpenMP distributes the iterations and whatever the schedule, each iteration is done exactly once, with a thread number below the number of threads asked for, and independent iterations give the result of the serial loop. The same holds for the deprecated threads, whose block size is the smallest that covers all tasks. With OpenMP numberOfThreads() asked outside of the loop is one, so it is not a bound for thread numbers; the deprecated class with zero threads does no task.", "quantifier": "all ranges, thread counts, distributions and schedules", "why_tests_cant": "schedules and distributions depend on the runtime", "anchors": ["src/Parallelizer2OpenMP.h: parallelFor, numberOfThreads", "src/Pthreads.h: loopCreate", "src/NoPthreads.h: loopCreate"]}
{"id": "C92", "title": "Matrices that are windows of a vector", "statement": "A MatrixNonOwned with elements is accepted exactly if its elements lie inside the vector; it reads and writes the elements of the vector from the offset in column-major order, and nothing outside of its window; windows that do not overlap do not see each other's writes; the window of a matrix reads and writes that matrix. A window without elements is refused at the beginning of a vector, and sizes whose product wraps are accepted although they do not fit.", "quantifier": "all vectors, sizes, offsets, positions and sequences of writes", "why_tests_cant": "aliasing and bounds concern all offsets and sizes", "anchors": ["src/MatrixNonOwned.h: MatrixNonOwned, operator(), check"]}
{"id": "C93", "title": "Matrices printed with letters can be read back", "statement": "The text of symbolicPrint has one symbol for each element and a table of letters; each symbol stands, according to the table, for the element at its place up to the tolerance. The table has at most 25 values, which are elements of the matrix and differ also in sign; otherwise an exception is thrown and the matrix has 26 such elements. Without tolerance it is printed exactly if all elements are zero or plus or minus one of 25 values, and the text determines the matrix.", "quantifier": "all matrices over all additive groups, all symmetric tolerances", "why_tests_cant": "the letters depend on all elements before", "anchors": ["src/Matrix.h: symbolicPrint"]}
{"id": "C94", "title": "Random numbers of the C library", "statement": "Whatever the seed, the numbers of Random48 are multiples of 2^-48 in [0,1), no number comes again before all 2^48 have come, and then they repeat. An object made by a process of rank below the number of processes starts from a seed between 0 and 10000 that is drawn for that rank, so there are at most 10001 streams and with more processes two get the same; a rank not below the number of processes is undefined. fillRandom gives, at any time, a vector of the same size with norm one, and throws for an empty one. Objects share one state, and seed() has no effect on the numbers.", "quantifier": "all seeds, ranks, numbers of processes, sizes, times and sequences of calls", "why_tests_cant": "the period is 2^48 and the seed is the time", "anchors": ["src/Random48.h: Random48, operator(), random, seed", "src/PsimagLite.h: fillRandom"]}
{"id": "C95", "title": "Momentum meshes and momentum sums", "statement": "The geometry has a mesh of momenta exactly if the first GeometryKind of the file is star, and finding that out takes nothing away from what the terms read later. A mesh of n points has m = floor(sqrt n) points in each direction; vector k below m*m is the grid point in row k/m and column k%m, both components are in [-pi, pi), different k give different vectors and every grid point is a vector. Sums and differences of cluster momenta are componentwise modulo two for a star with four orbitals and throw for anything else. Meshes of more than 2^31 points give wrong vectors.", "quantifier": "all input files, numbers of points, indices and momenta", "why_tests_cant": "all mesh sizes and all input files", "anchors": ["src/Geometry/GeometryEx.h: GeometryEx, getMeshVector", "src/Geometry/GeometryDca.h: kSum, kSustract"]}
{"id": "C96", "title": "Messages of an application", "statement": "An application can be made exactly if it was compiled with the same SizeType as the library; its name is the last part of its path. Its command line has all arguments in order, and splitting it at blanks gives them back if none is empty or has blanks. The two micro-architectures are always printed and the warning exactly if they differ. The echo of a file or of data is one line that decodes to exactly the bytes; a file that cannot be read is echoed like an empty one.", "quantifier": "all sizes, paths, arguments, architectures and contents of files", "why_tests_cant": "all contents and argument lists", "anchors": ["src/PsimagLite.h: PsiApp, printCmdLine, checkMicroArch, echoBase64, base64encode"]}
{"id": "C97", "title": "Standard output sent to a file", "statement": "In any sequence of prints, renamings, requests and buffer flushes: what is printed before the redirection is at the terminal, what is printed during it goes to the file, after the old text if the file is appended to; at every crash point the file lacks at most a part at the end still in the buffer, and nothing without a buffer. At a normal end nothing is lost or doubled and printing goes to the terminal again. A second request, or one for a file that cannot be opened, throws and changes nothing; no other file is touched.", "quantifier": "all sequences of events, crash points, buffer flushes and old files", "why_tests_cant": "all interleavings and crash points", "anchors": ["src/RedirectOutput.hh: RedirectOutput, doIt, setAppName, restoreCoutBuffer"]}
{"id": "C98", "title": "Texts of values and of maps", "statement": "typeToString gives the printed text of a value up to its first blank: for texts without blanks it is exact and for integers converting back gives the number; a text with a blank is cut. A map printed by printMap is read back by the input reader as the same map.", "quantifier": "all values and maps with printable keys", "why_tests_cant": "all values and all maps", "anchors": ["src/TypeToString.h: typeToString", "src/Map.h: printMap"]}
{"id": "C99", "title": "Expressions of dense matrices", "statement": "x = e with e a matrix, a sum, a difference, a multiple or a product of them makes x the value of e with its shape, whatever x held and also if x is one of the operands, and changes no other matrix. x += a*y adds for matrices of one shape, also if y is x, and a matrix without elements becomes a*y; different numbers of elements throw. The squared norm of a complex matrix is the trace of the adjoint times the matrix. Not true: += and some sums do not compare shapes, an exception of += leaves shape and elements that do not match, and a scalar that is an element of the target is read again after it changed.", "quantifier": "all matrices, shapes, scalars, expressions and aliasings", "why_tests_cant": "all shapes and all ways the target can be an operand", "anchors": ["src/Matrix.h: operator=, operator+=, Matrix (from expressions), norm2", "src/MatrixOrVectorExpressions (Vector.h): ClosureOperator"]}
{"id": "C100", "title": "Matrices in HDF5 files", "statement": "A dense matrix or a valid sparse matrix written under a free name is read back the same, whatever else is in the file, nothing else in the file changes, and the same for vectors and pairs of matrices; overwritten any number of times by real or integer matrices of any shape, the last one is read. Overwriting a dense matrix under a free name writes it. Not true: an empty matrix read into an object in use leaves old elements, overwriting a complex matrix stores the new shape with the old elements, and overwriting a sparse matrix under a free name loses it.", "quantifier": "all files, names, matrices and sequences of overwritings", "why_tests_cant": "all shapes, all contents of the file and all sequences of writes", "anchors": ["src/Matrix.h: read, write, overwrite", "src/CrsMatrix.h: read, write, overwrite"]}
{"id": "C101", "title": "Expressions of sparse matrices", "statement": "Any program made of x = y, x = a*y, x *= a, x += y, x += a*y, x += a*y*z, x(y*z), swap and clear does to a set of sparse matrices what it means for matrices, whichever of its operands are the same object; a sum extends the smaller matrix by zeros. Two valid matrices with sorted columns and without stored zeros compare equal exactly if they are the same matrix. Not true: in general operator== compares the storage and not the matrix; x *= x's own element reads the factor again after it changed; setCol and setValues do not accept the next free position, and with the position after it they write to the last one.", "quantifier": "all programs, matrices, scalars and aliasings", "why_tests_cant": "all sequences of statements, shapes and ways in which operands can be the target", "anchors": ["src/CrsMatrix.h: operator=, operator*=, operator+=, CrsMatrix (from a product), swap, clear, operator==, setCol, setValues"]}
{"id": "C102", "title": "Chunks and partitions of sparse vectors", "statement": "A partition of positions is found by findPartition exactly if the sorted first and last positions lie in a part as the code compares them, and the chunk of a vector that is written with the result has the elements of the vector at their positions in the part, and the tests of toChunk accept exactly what its comparisons say. Not true, and the reason why this is only partly proved: a vector whose elements are all at the beginning of a part throws for every partition, a vector whose last element is at the beginning of the next part is accepted and then written out of range, and the test of toChunk accepts the position after the chunk.", "quantifier": "all sparse vectors and partitions", "why_tests_cant": "all positions of the elements and all partitions", "anchors": ["src/SparseVector.h: findFirstLast, findPartition, toChunk, operator<<"]}
{"id": "C103", "title": "Messages with vectors and matrices", "statement": "A vector, a matrix or a sparse matrix of real or complex numbers that is sent is received, whatever the receiver's object held; any number of them sent one after the other are received, with any tags, also if tags of different objects are the same, and so they can be gathered as in C08. bcast gives all processes the matrix, sparse matrix or list of matrices of the root, whatever they had; allReduce gives all of them the sum element by element. Not true: a receiver's vector with more elements than fit in four bytes receives wrong sizes, a complex matrix whose number of elements is not the same everywhere makes bcast invalid, allReduce of a matrix without elements is undefined, and allReduce does not compare shapes.", "quantifier": "all vectors, matrices, tags, numbers of processes and old contents", "why_tests_cant": "all sizes, tags and old contents of the receiver, on all numbers of processes", "anchors": ["src/MpiYes.h: send, recv, bcast", "src/Matrix.h: send, recv, bcast, allReduce", "src/CrsMatrix.h: send, recv, bcast"]}
{"id": "C104", "title": "Matrices from text files and as bytes", "statement": "A matrix with elements that << or print wrote to a text file is the matrix that the constructor makes of the file, and the characters after it are left; a matrix without elements is refused. print with a threshold writes the matrix with zero in the place of every element whose norm is less than it. Any number of matrices written to a descriptor as bytes are read from it into any objects. Conversion converts every element, swap exchanges two matrices, and two matrices are equal exactly if their shapes and elements are. Not true: a file without both dimensions is not refused (dimensions without a value are used) and neither is one that ends early; reading bytes does not notice the end of the file; and the threshold is compared with the square of the absolute value if the elements are complex.", "quantifier": "all matrices, texts after and before them, thresholds and old contents of the objects", "why_tests_cant": "all sizes, elements and contents of the file after the matrix", "anchors": ["src/Matrix.h: Matrix(std::ifstream&), Matrix(const Matrix<RealType>&), print, read, swap, clear, operator==", "src/Complex.h: norm"]}
{"id": "C105", "title": "Vectors of objects overwritten in files", "statement": "A vector of matrices, sparse matrices or objects of a class that keeps similar promises, written to a file and then overwritten any number of times by vectors of any lengths, by overwrite or by write with permission to overwrite, is read as the last one; nothing else in the file changes, and entries that were there before do not come back. A pair of numbers can be overwritten too. Not true: a vector written with permission to overwrite under a name that is free is lost or throws; a vector of sparse matrices that gets longer this way has its new size without the new entries; and a class whose write does not throw where there is something shows old entries after its vector got shorter and longer again.", "quantifier": "all classes that satisfy the stated conditions, files, vectors and sequences of calls", "why_tests_cant": "all histories of lengths and contents", "anchors": ["src/Io/IoNgSerializer.h: overwrite, write", "src/Matrix.h: write, overwrite, read", "src/CrsMatrix.h: write, overwrite, read"]}
{"id": "C106", "title": "Functions from files in the input", "statement": "A function of the input language that is made from a file and two columns has, at every number in the first column, the value in the second column of the first line with that number; empty lines and extra blanks do not matter, nor whether the last line ends; without columns the first two are used; a file that cannot be opened is reported. In the input, the text (\"name\")(x) is read as the text of the value at x. Not true: a number that is not in the file is undefined behaviour; so is a line with one word too few; the separator comma is not used, so files with commas are refused; a line of blanks is refused; and a line with 2048 characters or more makes reading never end.", "quantifier": "all names, columns, files with any number of lines, and arguments", "why_tests_cant": "all files and all arguments; termination", "anchors": ["src/Ainur/AinurMacros.hh: AinurFunction, readData, operator(), valueFromFunction, procNativeMacro"]}
{"id": "C107", "title": "Continued fractions in text files", "statement": "A continued fraction written to a text file is read back as it was: coefficients, kind of frequencies, weight, energy, sign, eigenvalues and intensities. When collections of continued fractions are written one after the other to a file, opening the file and asking for collection number k gives that collection, with its fractions in order, and the kind of frequencies of its last fraction. Not true: an empty collection can be written but not read; writing when this process is not the first one is undefined behaviour; and in a file without the kind of frequencies, which the code allows for, the second fraction gets the weight, energy and sign of the first.", "quantifier": "all fractions of any number of coefficients, all lists of collections, all numbers k, and all ways to print numbers as words that do not begin with #, and to read them back", "why_tests_cant": "all lists of collections and all contents", "anchors": ["src/ContinuedFraction.h: ContinuedFraction(IoSimple::In&), write", "src/ContinuedFractionCollection.h: ContinuedFractionCollection(IoInputType&, level), write", "src/TridiagonalMatrix.h: TridiagonalMatrix(IoInputType&), write", "src/Io/IoSimple.h: read, readline, write"]}
{"id": "C108", "title": "Snapshots of memory in files", "statement": "A snapshot of registered memory that is saved to a file under a label of at most 128 bytes and loaded under the same label has all registered chunks, in order, with their kinds and lengths; its buffer is an image of the chunks for the address of the first of them, and the recorded address of each chunk is its place in that image. Loading under another label, a label of more than 128 bytes, or a file that cannot be opened throws. Not true: nothing after the label is checked, so a file cut short is loaded with whatever was in memory; saving before anything was copied is undefined behaviour.", "quantifier": "all memories, chunk lists, labels and files", "why_tests_cant": "all heaps, all labels and all files", "anchors": ["src/MemResolv.h: save, MemResolv(String, String), saveChunkInfo, saveChunkData, loadChunkInfo, stringEqual"]}
{"id": "C109", "title": "Registering objects for a copy of memory", "statement": "Registering a vector of numbers and copying gives a buffer that begins with a vector holding a copy of the numbers inside that buffer, if the numbers are at higher addresses than the vector; a vector of pointers and what they point to is copied so that the new pointers point to the same bytes of the new copy; an object that is not a class is one chunk, and only padding after it is overwritten, with zeros; a pair whose second member is at byte 8 is registered as both members; complex numbers and maps are refused. Not true: a vector whose numbers are at lower addresses, as for a local variable, is refused; so is every vector of two or more vectors, the first of which is not empty; the second member of a pair of 4-byte members is missed; and padding can be overwritten with 128 instead of zero.", "quantifier": "all memories, addresses, sizes and destinations", "why_tests_cant": "all layouts of memory", "anchors": ["src/MemResolv.h: memResolv, memResolvPtr, push, dup, ResolveFinalOrNot"]}
{"id": "C110", "title": "Scale and curve of the Chebyshev expansion", "statement": "If the spectrum is between three times the lowest and three times the highest energy found, in particular if these are exact and zero is in between, the scaled matrix has its spectrum between -1 and 1 and no Chebyshev moment is larger than the norm of the vector. The curve has its points at omega1, omega1+delta and so on, one for each whole step if the result is empty, and the values are those of the kernel polynomial series divided by sqrt(1-x^2). Not true: a ChebyshevSolver can never be constructed; with only positive energies the scaled spectrum leaves [-1,1]; and a step larger than the interval writes past the end of an empty result.", "quantifier": "all Hermitian matrices, vectors, energies, moments, kernels and intervals", "why_tests_cant": "all matrices and all orders of the moments", "anchors": ["src/ChebyshevSolver.h: ChebyshevSolver, computeAandB", "src/ChebyshevSerializer.h: plot", "src/LanczosVectors.h: LanczosVectors"]}
{"id": "C111", "title": "CPUs and stacks of threads", "statement": "With affinities each thread is bound to its own CPU: thread i to CPU number i, in ascending order, of those that the process may use, and threads for which none is left are not bound; whatever the system answers, no two threads are bound to the same CPU nor to one that the process may not use. Not true: the size of the stack that was asked for is never used; a CPU refused by the system is tried again for every thread, so that none is bound; and if a thread cannot be created, a thread that does not exist is joined.", "quantifier": "all sets of CPUs, numbers of threads and tasks, and answers of the system", "why_tests_cant": "all machines and answers of the system", "anchors": ["src/PthreadsNg.h: loopCreate, setAffinity, getOneCpuFromSet, getPidAffinity", "src/Parallelizer2Pthread.h: parallelFor"]}
{"id": "C112", "title": "Output files opened and closed again", "statement": "A program that opens an output file, for writing or for appending, writes lines, numbers and objects, closes it and goes on like this with any files any number of times gets no exception, and in the end each file has exactly what was written to it since it was last opened for writing, preceded by the old contents if it was only opened for appending; the last file need not be closed. In processes other than the first nothing is opened and lines and objects are not written. Not true: opening a second file without closing the first throws, and from then on everything written is silently lost; what is written after close is lost without an exception the first time; before a file is opened, or in other processes for numbers and close, a null pointer is followed; a file with the name OSTREAM is never closed.", "quantifier": "all sequences of sessions, file names, modes, texts and initial contents of files", "why_tests_cant": "all histories of calls", "anchors": ["src/Io/IoSimple.h: Out, Out::open, Out::close, Out::write, Out::printline, ~Out"]}
{"id": "C113", "title": "Geometries from Ainur inputs", "statement": "An Ainur input whose labels describe a geometry of several terms (chain, ladder, ladderx, ladderbath, star, ktwoniffour, Honeycomb) is read as this geometry: the values between any two sites and orbitals are those of the list or matrix of the bond's direction, zero if there is no bond, conjugated for the other order. With several terms the labels of the term number k begin with gtk: and each term may leave out its optional labels whatever the other terms have. The label prefix of the input is the same afterwards. Not true if the constructor throws: then the prefix stays, and later reads ask for wrong labels.", "quantifier": "all inputs, numbers of sites, terms, orbitals and directions", "why_tests_cant": "all inputs and all pairs of sites and orbitals", "anchors": ["src/Geometry/Geometry.h: Geometry", "src/Geometry/GeometryTerm.h: GeometryTerm", "src/Geometry/GeometryDirection.h: GeometryDirection", "src/InputNg.h: Readable::readline, Readable::read", "src/Ainur/AinurSpirit.h: Ainur::prefix, Ainur::readValue"]}
{"id": "C114", "title": "Labels that geometries declare", "statement": "The text of Geometry::import followed by an input that assigns values to labels that it declares is accepted by Ainur; each label is then read with the last value assigned to it, and labels that were not assigned cannot be read. An input that assigns a label that is not declared is refused. Declared are the total number of sites, the number of terms and for nine numbered terms and one without number the number of orbitals, the kind, the options, the leg, the distance, the bath sites, the modifier and nine lists of connectors. Not declared, although geometries read them, are the flags of periodic boundaries, the labels of ktwoniffour, Honeycomb and LongRange, numbered matrices and a tenth term.", "quantifier": "all inputs made of assignments, in any layout, and all labels", "why_tests_cant": "all inputs and labels", "anchors": ["src/Geometry/Geometry.h: import", "src/Geometry/GeometryTerm.h: import", "src/InputNg.h: Readable::Readable"]}
{"id": "C115", "title": "Coefficients of linear prediction and predictions without growth", "statement": "The constructor of LinearPrediction, given 2n values and p coefficients with 0<p<=n, computes the solution of the normal equations of the least squares problem over the second half if these have only one solution; predictions then continue exactly all data that follow a recurrence of p terms. If they have more than one solution (for instance data that follow a shorter recurrence) there is no exception and the coefficients are what LAPACK left. predict2 keeps the values and appends as many as there are coefficients, which follow a recurrence whose polynomial has the same roots, but for those outside of the unit circle, which become zero: no root is outside of the unit circle, and if none was, the values are those of predict. predict2 asked for another number of values reads coefficients that are not there. linearPredictionfunction uses only the length of its argument.", "quantifier": "all data, numbers of coefficients and of values, and all routines that do what the documentation of LAPACK, BLAS and GSL says", "why_tests_cant": "all data and all orders", "anchors": ["src/LinearPrediction.h: LinearPrediction, linearPredictionfunction, predict2, computeD"]}
{"id": "C116", "title": "Integrals", "statement": "Integrator gives the integral of the function between the first two points (or, with INTEG_QAGP, from the first to the last of ascending points; with toInfinity above a number; without arguments over all numbers) up to the larger one of the absolute tolerance and the relative tolerance times the integral, if no error is printed; it never complains about its own workspace. If the accuracy was not reached, a line is printed to the standard error but there is no exception, and the number given may be anything. Less than two points are undefined behaviour. Without GSL the constructor throws.", "quantifier": "all functions that have the integral, points, tolerances and limits, and all routines that do what the documentation of GSL says", "why_tests_cant": "all functions and points", "anchors": ["src/Integrator.h: Integrator", "src/GslWrapper.h: GslWrapper"]}
{"id": "C117", "title": "Fits of a curve", "statement": "The example program fit minimizes the sum of the squares of the differences between the data and its curve; the derivative that it gives for the gap is the derivative of the curve, and so is the first component of its gradient. The derivative that it gives for the width is not: a sign is wrong.", "quantifier": "all data, energies, gaps and widths away from poles", "why_tests_cant": "all real arguments", "anchors": ["examples/fit.cpp: FitData, Fitter::MyFunctionTest"]}
{"id": "C118", "title": "A Lanczos solver used more than once", "statement": "A LanczosCore can do any number of decompositions of a Hermitian matrix, with any non-zero start vectors, and what was stored by earlier ones has no influence on values: each result is that of a new object whose maximum number of steps is the number of steps of the decomposition before. So the number of steps never grows again, and a used object can stop earlier than a new one. A start vector of another length is refused with an exception. The Lanczos vectors can be swapped out after a decomposition and not before; afterwards the next decomposition is refused unless what was swapped in has the shape needed.", "quantifier": "all Hermitian matrices, start vectors, parameters, and all sequences of decompositions", "why_tests_cant": "all histories of the object", "anchors": ["src/LanczosCore.h: decomposition, lanczosVectorsSwap", "src/LanczosVectors.h: prepareMemory, swap, data"]}
{"id": "C119", "title": "Objects as groups, enumerations and geometries in files", "statement": "An object written member by member into a group of an HDF5 file, and its members in the same way, comes back equal when it is read member by member under the same labels, at any depth, provided the labels of each object differ; vectors of objects, of numbers, of matrices and enumerations can be members. So a geometry with any terms, directions, orbitals, number of sites, and real or complex connectors comes back as it was, each part of it is at the place named by the labels, and overwriting it with another geometry gives the other one. An enumeration keeps its value if that is less than 256; larger ones come back reduced modulo 256.", "quantifier": "all geometries as stored data, all objects made of labelled members, all files", "why_tests_cant": "all nestings, sizes and values", "anchors": ["src/Geometry/Geometry.h: write", "src/Geometry/GeometryTerm.h: write", "src/Geometry/GeometryDirection.h: write", "src/Io/IoNgSerializer.h: write, read, internalWrite"]}
{"id": "C120", "title": "Geometries as text", "statement": "What print gives for a term is the matrix of its connectors: a line for each site and orbital, the orbital changing first, with the value of each pair of sites and orbitals in that order and 0 for sites that are not connected, also when the number of orbitals differs from site to site. The output of a term is its directions in order followed by this matrix, and that of a geometry its size, the number of terms and each term. A direction is printed with its matrices; if it has numbers they are not printed.", "quantifier": "all geometries, numbers of sites and orbitals, connectors, and texts of numbers", "why_tests_cant": "all sizes and values", "anchors": ["src/Geometry/GeometryTerm.h: print, operator<<", "src/Geometry/GeometryDirection.h: operator<<", "src/Geometry/Geometry.h: operator<<"]}
{"id": "C121", "title": "Parallel loops within parallel loops", "statement": "A task of a parallel loop may itself create a parallel loop and wait for it. For any program made of actions and parallel loops, at any depth, with any number of tasks and threads in each loop: every run under every schedule ends, never stops half way, and leaves the result of the loops done one after another by a single thread, provided that actions of different tasks of a loop, or of what those tasks create, do not affect one another. In particular the program examples/nested.cpp, in which each task of the outer loop sums the numbers of an inner loop and adds the result to the place of its own thread, always prints the sum of the numbers below outer times inner, reduced to 32 bits. If tasks add to one shared number by reading and writing it, updates can be lost.", "quantifier": "all programs of nested loops, numbers of tasks and threads, and all schedules, for the program at the level of single reads and writes", "why_tests_cant": "all interleavings of threads at all depths", "anchors": ["src/PthreadsNg.h: loopCreate", "examples/nested.cpp"]}
{"id": "C122", "title": "What the kernel polynomial method guarantees", "statement": "A plot made by the kernel polynomial method from the Chebyshev moments of a vector and of a Hermitian matrix scaled so that its spectrum lies within [-1,1] has, with the Jackson kernel or the Lorentz kernel (with a parameter that is not zero), no negative value, whatever the number of moments, the cutoff and the points of the plot. The series behind the curve has exactly the moments that were given times the kernel's coefficients, for any kernel, and the area under the curve is exactly that of the first moment. Each coefficient of the kernel goes to one as the number of moments grows. As a consequence the plots converge to the spectrum: the integral of any continuous function times the curve goes to the sum of the function over the eigenvalues with the weights that the vector has there. The second coefficient of Jackson's kernel, which sets its width, is cos(π/(N+1)). Without a kernel (Dirichlet's) the curve can be negative.", "quantifier": "all Hermitian matrices with spectrum in [-1,1], vectors, numbers of moments, cutoffs, kernels, grids of points and continuous functions", "why_tests_cant": "infinitely many matrices, vectors and numbers of moments; the convergence is a limit", "anchors": ["src/ChebyshevSerializer.h: plot, calcF, initKernel, initKernelJackson, initKernelLorentz"]}
{"id": "C123", "title": "Setting the inputs of an expression tree", "statement": "For a tree of the library's operators and of inputs numbered below ten, set(values) gives every input its value, whatever was set before and also when nodes are shared between places of the tree, leaves nodes outside of the tree alone, and exec() then returns the value of the expression with input number i replaced by values[i]; trees that share no inputs with it keep their value. isLinearTree() is true exactly if all nodes lie on a single way down. Inputs numbered from 10 to 255 are silently not set, and input number 256 takes the value of input number zero.", "quantifier": "all trees, of any shape and depth, values, and earlier contents of the inputs", "why_tests_cant": "infinitely many trees and sharings of nodes", "anchors": ["src/AST/Tree.h: set, exec, isLinearTree", "src/AST/Node.h: Input"]}
{"id": "C124", "title": "How accurate the Lanczos solver is", "statement": "For a Hermitian matrix with lowest eigenvalue lo and all others between next and hi, and a start vector with a part g in the ground states and a part x orthogonal to them, the ground state energy E that computeOneState returns satisfies lo ≤ E and (E-lo) ‖g‖² T_k(γ)² ≤ (hi-lo) ‖x‖², where k+1 is the number of steps made, T_k the Chebyshev polynomial and γ = (hi+next-2lo)/(hi-next) > 1; the error therefore goes down geometrically with the number of steps, at a rate that depends on the gap only. The part of the returned vector outside of the ground states is at most (E-lo)/(next-lo), squared norm. More steps never give a higher energy. All energies that computeAllStatesBelow returns lie between the exact ones: the i-th is not below the i-th exact eigenvalue from the bottom and not above the eigenvalue at the same place from the top.", "quantifier": "all Hermitian matrices of any size, start vectors with independent powers, numbers of steps, and gaps", "why_tests_cant": "a bound on the error of every matrix and start vector cannot be sampled", "anchors": ["src/LanczosSolver.h: computeOneState, computeAllStatesBelow", "src/LanczosCore.h: decomposition"]}
{"id": "C125", "title": "Memory images of matrices, meshes and strings", "statement": "MemResolv of a dense matrix of numbers, whose elements are at a higher address than the matrix, followed by dup, gives a buffer that begins with a matrix with the same numbers of rows and columns and with pointers to a copy of all elements inside the buffer, and changes no byte of the original; this holds for empty matrices too, and matrices of complex numbers are refused. A mesh in a place of 24 bytes is registered whole and only bytes between its members change. A sparse matrix with at least one beginning of a row can never be copied, wherever its arrays are, and neither can a string of at most 15 characters; a longer string is copied with a wrong length, and bytes that do not belong to it are overwritten.", "quantifier": "all contents of memory, addresses of the object and of its arrays, sizes below 2^32 bytes, and addresses of the new buffer", "why_tests_cant": "the outcome depends on the addresses that the allocator happens to give", "anchors": ["src/Matrix.h: memResolv", "src/CrsMatrix.h: memResolv", "src/Geometry/GeometryEx.h: memResolv", "src/MemResolv.h: memResolv, dup"]}
{"id": "C126", "title": "Exact and Lanczos energies of a matrix in a file", "statement": "The program testLanczosMatrixInFile, given the text of an n by n Hermitian matrix with 2 <= n <= 200, prints its n eigenvalues in increasing order after EXACT, and the very same numbers after LANCZOS, whenever the random start vector and its images under the powers of the matrix are independent; that is so if all eigenvalues differ and the start vector has a part along each eigenvector. For the matrix that exchanges two sites it is so at whatever time the program is run. Different numbers of rows and columns are refused. With equal eigenvalues the second list is wrong: for the 2 by 2 unit matrix it is 0 and 1, at whatever time. With more than 200 rows the program throws, and with one row it writes out of range.", "quantifier": "all sizes, matrices and their texts, times at which the program is run, and LAPACK routines that do what their documentation says", "why_tests_cant": "infinitely many matrices and start vectors; the start vector depends on the time", "anchors": ["examples/testLanczosMatrixInFile.cpp: main", "src/LanczosSolver.h: computeAllStatesBelow", "src/LanczosOrDavidsonBase.h: isReorthoEnabled"]}
{"id": "C127", "title": "A whole program with a parallel loop prints the same text under every schedule", "statement": "The program range, given a number of tasks and a number of threads, prints the sum of the numbers of its tasks and the list of their squares: exactly this text for every way the threads are scheduled, for builds with and without pthreads; it always ends and never gets stuck. Built with MPI it writes a 64-bit sum into a 32-bit variable, and since every process runs the whole loop the squares are multiplied by the number of processes. Zero threads divide by zero.", "quantifier": "all numbers of tasks and threads that fit into an int, all builds without MPI, all schedules; with MPI all numbers of processes", "why_tests_cant": "the schedules are not under the control of a test and there are exponentially many", "anchors": ["examples/range.cpp: MyLoop, main", "src/Parallelizer.h", "src/PthreadsNg.h: loopCreate", "src/NoPthreadsNg.h: loopCreate", "src/Concurrency.h: storageSize, storageIndex", "src/MpiYes.h: allReduce"]}
{"id": "C128", "title": "Continued fractions of several files combined and then plotted", "statement": "Combining files takes the last fraction of each, whatever else is in the files before it, in the order of the files. Plotting the combined file prints, for every frequency of the grid, the imaginary and the real part of the sum of the functions of the fractions as they are read from the files: although digits are cut when the combined file is written, and the fractions are diagonalized again, combining changes no printed value. With -1 the fractions are printed one after the other. The program for one fraction prints real and imaginary parts in the opposite order. Files for Matsubara and for real frequencies are combined without complaint; the plot over real frequencies then silently drops the Matsubara fraction if its file came first, and throws otherwise.", "quantifier": "all numbers of files, contents, fractions, ways of rounding numbers to text for which rounding twice is rounding once, and parameters of the plot with at least one frequency", "why_tests_cant": "unbounded number and contents of files; rounding in text", "anchors": ["examples/combineContinuedFraction.cpp: main", "examples/continuedFraction.cpp: main", "examples/continuedFractionCollection.cpp: main, plotAll, plotOneByOne", "src/ContinuedFraction.h: ContinuedFraction, write, plot", "src/ContinuedFractionCollection.h: ContinuedFractionCollection, write, plot, plotOne", "src/Io/IoSimple.h: advance, read, readline"]}
{"id": "C129", "title": "The lowest energy of a random sparse matrix", "statement": "For every number of rows, limit of columns, largest value and seed the program builds a valid matrix whose rows have at least one element and at most as many as the limit, in different columns, every element being a random number from 0 to 1 times the largest value; with its transpose added, all assertions hold. The energy printed is the lowest expectation value of the matrix in the space of its first five powers applied to the random start vector, or the first two for at most four rows. It is never below the lowest eigenvalue; but whenever one more power is independent it is strictly above it: the program does not print the ground state energy it says. With one row it stores past the end of a vector; the options -d and -x only throw.", "quantifier": "all numbers of rows and columns below 2^31, largest values, seeds, times of the run, roundings with relative error at most 2^-52, and LAPACK routines that do what their documentation says and converge", "why_tests_cant": "unbounded sizes, seeds and times; every LAPACK", "anchors": ["examples/sparseSolverTest.cpp: main", "src/LanczosSolver.h: computeOneState", "src/LanczosCore.h: decomposition", "src/DavidsonSolver.h: computeOneState", "src/CrsMatrix.h: setRow, pushValue, pushCol, checkValidity, transposeConjugate, operator+=, isHermitian", "src/Random48.h: Random48", "src/PsimagLite.h: fillRandom"]}
{"id": "C130", "title": "A loop with weights in a whole program", "statement": "For every number of tasks and threads, with or without pthreads, whichever order the balancer gives to tasks of equal weight and however the threads are scheduled (also between the reading and the writing of a sum), the program ends and never gets stuck. It prints the weights, which are from 1 to 10 and do not depend on rounding, and then, for up to 20000 tasks, the sum over all tasks of the task's number plus 0, 1, ... below its weight. The result is an int: for more than 65536 tasks it is never that sum. With no threads the behaviour is undefined.", "quantifier": "all numbers of tasks and threads that fit into an int, all outcomes of the sort, all schedules of the threads at the level of single reads and writes", "why_tests_cant": "schedules and sizes without bound; the order of equal weights is not specified", "anchors": ["examples/loadImbalance.cpp: main, MyHelper", "src/LoadBalancerWeights.h: LoadBalancerWeights", "src/PthreadsNg.h: loopCreate", "src/NoPthreadsNg.h: loopCreate"]}
{"id": "C131", "title": "The calculator as a whole program", "statement": "For every expression over +, -, *, /, %, sin, cos, log, exp, ? and numbers whose words are written level by level with colons between them, the program prints its argument, a tab and the value of the expression, where %t is one fourth; words after a complete expression are ignored. Whenever it prints a value, the argument begins with such an expression and the value is its value; without argument it prints nothing and returns one. Division by a number below 0.001 in absolute value gives the dividend, so 1 divided by 0.0005 is printed as 1.", "quantifier": "all expressions of any depth, all texts after them, all meanings of the numbers and functions", "why_tests_cant": "expressions of any depth and size", "anchors": ["examples/calculator.cpp: main", "src/AST/ExpressionForAST.h: ExpressionForAST", "src/AST/PlusMinusMultiplyDivide.h: PlusMinusMultiplyDivide", "src/PsimagLite.cpp: replaceAll, split"]}
{"id": "C132", "title": "The kernel polynomial program", "statement": "Options without a file, with an empty interval or with a step that is not positive are refused with a message about the usage, and only these; a file that cannot be read is an exception. With options that are accepted and a file that can be read the program never prints a curve: the object that the moments are read into has no elements, so that storing two or more moments, or plotting fewer, is undefined behaviour.", "quantifier": "all options, all kernels, all contents of files", "why_tests_cant": "all files and options; undefined behaviour can look like success", "anchors": ["examples/kernelPolynomial.cpp: main", "src/ChebyshevSerializer.h: ChebyshevSerializer, plot", "src/TridiagonalMatrix.h: TridiagonalMatrix, a, b"]}
{"id": "C133", "title": "A loop over Parallelizer2 as a whole program", "statement": "For every positive number of tasks and of threads, and for each of the three versions of Parallelizer2 (threads, OpenMP with any distribution, serial), the loop never gets stuck, always ends, and the program then prints 42 and the number of tasks plus 41, whatever the schedule. The serial version refuses more threads than one. The version with OpenMP always says that there is one thread. With no tasks, or with pthreads and no threads, the behaviour is undefined.", "quantifier": "all numbers of tasks and threads that fit into an int, all distributions by OpenMP, all schedules", "why_tests_cant": "schedules and sizes without bound", "anchors": ["examples/testParallelizer2.cpp: main", "src/Parallelizer2Pthread.h: parallelFor", "src/Parallelizer2OpenMP.h: parallelFor, numberOfThreads", "src/Parallelizer2Serial.h: parallelFor"]}
{"id": "C134", "title": "A sparse matrix from a file as a whole program", "statement": "For every file that starts with the text of a matrix with rows and columns, whose elements in columns after the number of rows are zero, testCRSMatrix prints the matrix, the vector of random numbers, the exact product of the two, the sparse matrix, with exactly the elements that are not zero listed row by row and the starts of the rows, and then the same dense matrix again. A nonzero element in a column after the number of rows makes the behaviour undefined, and so does a file that cannot be opened.", "quantifier": "all matrices, all rest of the file, all ways of writing numbers that read back", "why_tests_cant": "all matrices of all sizes and all files", "anchors": ["examples/testCRSMatrix.cpp: main, testMultiply, fillRandomVector", "src/CrsMatrix.h: operator<<, CrsMatrix, matrixVectorProduct, toDense", "src/Matrix.h: operator>>, operator<<", "src/Vector.h: operator<<"]}
{"id": "C135", "title": "Linear prediction as a whole program", "statement": "For every file that IoSimple wrote in which the label is first that of a vector of an even number of points, for every number of points to predict and of coefficients (at least two, at most half of the points) such that the least squares problem has one solution, linearPrediction prints the number of points, the points, and then as many further numbers as asked for, each the combination of the numbers before it with the coefficients that are best for the second half of the points; making the coefficients again in each round changes nothing. So a series that obeys a recurrence is continued exactly. Options are refused exactly if the file, the label or the number of points is missing or there are fewer than two coefficients; a missing file and an odd number of points are exceptions; more coefficients than half of the points are undefined behaviour.", "quantifier": "all files, labels, points, numbers of points to predict and of coefficients", "why_tests_cant": "series and files of any size", "anchors": ["examples/linearPrediction.cpp: main", "src/LinearPrediction.h: LinearPrediction, linearPredictionfunction, predict", "src/Io/IoSimple.h: In::read"]}
{"id": "C136", "title": "Decompositions of a number as a whole program", "statement": "For all numbers t and s whose number of decompositions, the binomial coefficient of t+s-1 over s, fits into an int, sumDecomposition t s prints how many ways there are to write s as an ordered sum of t numbers and then all of them, each once, in lexicographic order; with a further number k it prints the one at position k, or none if there is none; with a negative one it prints the binomial coefficient. If the coefficient does not fit into an int, the behaviour is undefined even if only one of them is asked for.", "quantifier": "all numbers that fit into an int", "why_tests_cant": "the number of cases grows without bound", "anchors": ["examples/sumDecomposition.cpp: main", "src/SumDecomposition.h: SumDecomposition, operator<<"]}
{"id": "C137", "title": "A whole program that adds the numbers of its tasks", "statement": "For any number of threads and up to 65536 tasks, with or without the pthreads library, and however the threads are scheduled, examples/threads ends, never gets stuck, and prints the sum of the numbers of the tasks. With more tasks the sum is printed as an int and is wrong (negative from 65537 on); with no threads it divides by zero; with another number of arguments than two no loop is started.", "quantifier": "all numbers of tasks and of threads, all builds, all schedules", "why_tests_cant": "schedules cannot be enumerated by tests", "anchors": ["examples/threads.cpp: main, MyHelper", "src/Parallelizer.h: Parallelizer", "src/PthreadsNg.h: loopCreate"]}
{"id": "C138", "title": "A whole program that compares products in tiles with BLAS", "statement": "In exact arithmetic, for any number of threads, any positive block size below the largest int, with or without the pthreads library, and however the threads are scheduled, examples/testGemmR ends and prints that all products of all sizes and all forms, real and complex, agree; with printing switched on, there is a line for each product with an error of zero and the sum of absolute values of the product. With a block size of zero it never ends, with the largest int the variables of its loops overflow, and with no threads and a block size up to 300 it divides by zero.", "quantifier": "all numbers of threads, all block sizes, all schedules", "why_tests_cant": "schedules cannot be enumerated by tests, and there are two thousand million block sizes", "anchors": ["examples/testGemmR.cpp: main, test_GEMMR", "src/GemmR.h: GemmR"]}
{"id": "C139", "title": "Whole programs for options, predicates and integrals", "statement": "examples/options prints whether fast is among the comma-separated words, and throws if one of them is unknown. examples/testPredicate prints whether the predicate, with 5 in the place of every c, holds for the given number in the place of l. examples/integrator prints, for every point, the point and a number that is its third power up to the tolerance unless an error is printed.", "quantifier": "all option strings, all predicates of the language and all integers, all points and steps", "why_tests_cant": "inputs are unbounded", "anchors": ["examples/options.cpp: main", "examples/testPredicate.cpp: main", "examples/integrator.cpp: main"]}
{"id": "C140", "title": "A whole program that reads an input file", "statement": "examples/testInputNg, run on a file in the Ainur format or in the older format that gives an integer to myscalar and a list of numbers to myvector, prints the integer and the name of the file and returns 0, whatever other statements, comments and spaces the file has and whether or not it has mystring. In the Ainur format the value given last counts and lines !A$iB a b ... stand for A0B=a; A1B=b; ...; in the other format the first value counts. Without a value for myscalar, with a name used without declaration or declared again, and for files that cannot be opened, an exception ends the program and no number is printed. A file in the Ainur format whose last line has no end of line is refused.", "quantifier": "all well-formed files of both formats, all integers, all lists of decimal numbers", "why_tests_cant": "files are unbounded", "anchors": ["examples/testInputNg.cpp: main, MyInputCheck", "src/InputNg.h: Writeable, Readable", "src/Ainur/AinurState.h: readValue", "src/Ainur/AinurConvert.hh: convert"]}
{"id": "C141", "title": "Whole programs that store vectors and read them back", "statement": "examples/testIoNgBoolean with a length below 2^31 ends well for every state of the random generator, prints OK twice and nothing else, and leaves a file in which every reader finds the two vectors of truth values bit for bit; a negative length is refused, and without an argument nothing is done. If the program dies while it saves, at any moment, the file is refused by every reader. Only OK is printed for two vectors of one length exactly when they are equal, but OK is the last line for different ones as well, and a shorter second vector is read out of range. examples/testIoNg prints the vector that it stored.", "quantifier": "all states of the generator, all lengths, all moments of a crash, all conversions of the HDF5 library", "why_tests_cant": "lengths, random states and moments of a crash are not bounded", "anchors": ["examples/testIoNgBoolean.cpp: main, createVector, saveAll, compare", "examples/testIoNg.cpp: test1", "src/Io/IoNg.h: Out, In", "src/Io/IoNgSerializer.h: write, read, convertFromBoolean, convertToBoolean, writeCanary, readCanary"]}
{"id": "C142", "title": "A whole program that multiplies matrices in parallel with BLAS", "statement": "examples/isBlasThreaded with sizes of at least one, any number of tasks and any number of threads (one without pthreads) ends under every schedule, never gets stuck and never accesses memory out of bounds; when it ends, every task holds the exact product of the two matrices that were drawn for it, in the place of the second factor and of the product, and the second factor in the place of the first, where tasks with odd numbers have matrices of twice the size. With zero rows a task takes the address of an element that does not exist. A build without threads refuses any number of threads but one, and with fewer than five arguments nothing is done.", "quantifier": "all sizes, numbers of tasks and threads in the range of int, all sequences of random numbers, all schedules, both builds", "why_tests_cant": "a test sees one schedule and a few sizes, and the program itself checks nothing", "anchors": ["examples/isBlasThreaded.cpp: main, MyBlasWrapper", "src/Parallelizer.h: loopCreate", "src/BLAS.h: GEMM"]}
{"id": "C143", "title": "A whole program with a loop over processes", "statement": "examples/internode without MPI prints the numbers below its argument, a line, the numbers again, a line and the name of the host. With MPI every process prints all numbers first, and after the line each number is printed by exactly one process; the shares of the processes in order of rank are all numbers in order. Without a name of the host there is a message on the standard error and the rest is the same; without an argument a usage line is printed and the program returns one.", "quantifier": "all arguments in the range of int, all numbers of processes and all ranks, all host names", "why_tests_cant": "a test runs with a few numbers and a few processes", "anchors": ["examples/internode.cpp: main", "src/InterNodeSerial.h: parallelFor", "src/InterNodeMpi.h: parallelFor"]}
{"id": "C144", "title": "A whole program that compares expressions of sparse and dense matrices", "statement": "The function testCrsMatrix of examples/closuresTest, with random sparse matrices of any size, any seed, any number of elements, any largest value and any factors, prints that all four checks pass; each random matrix has at most the number of elements asked for, each a random number from zero to one times the largest value; at the end the sparse and the dense variables hold the matrices that the expressions mean. The check says that it passes exactly if all elements are as near as 1e-6.", "quantifier": "all sizes from 1 to 2^31, all seeds, numbers of elements, largest values and factors, all roundings of the products that choose rows and columns", "why_tests_cant": "the program runs one seed, one size and three factors", "anchors": ["examples/closuresTest.cpp: testCrsMatrix, createRandomCrs, checkCrs", "src/CrsMatrix.h: operator+=, operator=", "src/Matrix.h: operator+=, operator="]}
{"id": "C145", "title": "Sections for which MPI is disabled", "statement": "After any sequence of calls of mpiDisable, MPI is disabled for exactly the labels given, if the program has MPI, and for none otherwise. Of a section that is not disabled the rank and the block size stay as they are; for one that is disabled every process gets rank zero and one block with all tasks, so it runs all of them, and a program that has threads also gets an exception.", "quantifier": "all builds, all configurations a program can reach, all sequences of labels, all ranks, block sizes and numbers of tasks", "why_tests_cant": "a test runs one build and a few labels", "anchors": ["src/Concurrency.h: mpiDisable, isMpiDisabled, mpiDisableIfNeeded", "src/LabelDisabled.h: disable, operator()"]}
{"id": "C146", "title": "Replacement of labels in expressions", "statement": "CanonicalExpression::replaceOne replaces the first occurrence of the label and returns true, or returns false and the string as it was. replaceAll, if the label and the printed value are not empty and have no character in common, ends, replaces all occurrences from left to right, and returns whether there was one. If the label occurs in the printed value and in the string, replaceAll never ends; and a label that comes into being by a replacement is replaced too.", "quantifier": "all strings, labels and printed values", "why_tests_cant": "there are infinitely many strings, and that the loop ends has to hold for all", "anchors": ["src/CanonicalExpression.h: replaceOne, replaceAll"]}
{"id": "C147", "title": "The record of a run in a results file", "statement": "A program writes its ApplicationInfo into a file under a new name at the start and again after finalize, with anything written elsewhere in between. The file then has the name of the program, the identifier of the run and the times of the start and of the end, all readable; before the second call there is no time of the end; nothing else in the file is changed. A record of the start under a name that is taken throws. The time of the end is lost without an exception if there is no record of the start or already a time of the end.", "quantifier": "all files, names, texts that can be stored (not empty, ASCII), all times, everything that is written in between", "why_tests_cant": "files, names and what is written in between are unbounded", "anchors": ["src/ApplicationInfo.h: write, finalize", "src/Io/IoNgSerializer.h: createGroup, write, internalWrite"]}
{"id": "C148", "title": "The program that multiplies in tiles within a parallel loop", "statement": "The example program testGemmR2: each task of a parallel loop multiplies two matrices with GemmR, that is with threads of its own, and again with BLAS, and throws if the results differ. Whatever the tasks draw (sizes from 10 to 509, any elements), for all numbers of tasks and positive numbers of outer and inner threads, and however all threads are scheduled, the program ends, never gets stuck, accesses no matrix out of bounds, no task throws, and both results are the product. Without arguments the program throws; with one or two arguments, or no outer threads, its behaviour is undefined.", "quantifier": "all numbers of tasks and threads, all sizes and elements drawn, all schedules of nested threads", "why_tests_cant": "schedules of nested threads cannot be enumerated, and what is drawn depends on the schedule", "anchors": ["examples/testGemmR2.cpp: main, equalMatrices", "src/GemmR.h: operator()", "src/Parallelizer2Pthread.h: parallelFor"]}
{"id": "C149", "title": "Copies that live as long as the object that made them", "statement": "A DeepCopyOrNot that copies returns for each call an object in a place of its own with the value the argument had at the time of the call; until the DeepCopyOrNot is destroyed it stays there and keeps this value, whatever the program does to its own objects, including changing or deleting the argument; its destructor deletes each copy exactly once and nothing else. One that does not copy returns the argument itself, allocates nothing and deletes nothing.", "quantifier": "all histories of calls (also with earlier copies as arguments), and of making, changing and deleting other objects", "why_tests_cant": "histories are unbounded", "anchors": ["src/DeepCopyOrNot.h: DeepCopyOrNot, operator()"]}
{"id": "C150", "title": "Limits of memory", "statement": "Limit::memory(s, h) with s not negative sets the soft limit to s and the hard limit to the larger one of s and h, if the process may do so, and memory() then returns these. In a process that may not raise its hard limit, no sequence of calls raises it. Limits that are refused are lost without an exception: a negative s changes nothing, and after memory(s) no larger limit can be set.", "quantifier": "all limits, all arguments that are values of int, all sequences of calls", "why_tests_cant": "sequences of calls are unbounded, and a test would change the limits of its own process", "anchors": ["src/Limit.h: memory, checkRet"]}
{"id": "C151", "title": "The life of an object that writes or reads a file", "statement": "IoNg::Out and IoNg::In objects made one after another, over any number of files: after any history of constructors, open, close, flush, createGroup, write, doesGroupExist, read, filename and destructors, every call answers what a disk of stores would. A constructor with ACC_TRUNC begins an empty store, ACC_RDW continues the one that is there, ACC_RDONLY is refused unless a writer of the file has flushed, closed or been destroyed; groups and values are those last stored; open on an open object throws and changes nothing; nothing is undefined, no destructor throws, and no call changes another file than the one it names or that is open. Excluded, because they fail: use of a closed object, opening a closed object again for something else than it was made for or for a new file, ACC_EXCL, and writing with ACC_RDONLY.", "quantifier": "all histories of calls over any number of objects and files, all names and values", "why_tests_cant": "histories are unbounded, and each call depends on all that came before", "anchors": ["src/Io/IoNgSerializer.h: IoNgSerializer, ~IoNgSerializer, open, close, flush, createGroup, doesGroupExist, writeCanary, readCanary", "src/Io/IoNg.h: Out, In, modeToH5"]}
{"id": "C152", "title": "A program that reads a number, a text, a vector and a matrix", "statement": "src/Ainur/testReal.cpp, from start to end, for all files. The files named by the arguments are read as one text, so a statement may begin in one and end in the next. If the text is a file in the Ainur format that gives a number that is not negative to TotalNumberOfSites, a text to Model, a list or a repeated entry to myv2 and rows of the same length to mymatrix, the program prints exactly these, as given last, and ends well. If a value is not given, what comes before it is printed and the program dies with an exception; files refused, or a file that cannot be opened, end it with an exception before anything is printed; without arguments it returns 1 in silence. Found not to hold: a negative number is refused (it is taken modulo 2^64).", "quantifier": "all lists of arguments, all contents of files, all layouts, numbers, texts, vectors and matrices", "why_tests_cant": "files, layouts and sizes are unbounded", "anchors": ["src/Ainur/testReal.cpp: main, partiallyReadSomething", "src/Ainur/AinurConvert.hh: convert", "src/Ainur/AinurConvert1.cpp: convert", "src/Ainur/AinurState.h: readValue"]}
{"id": "C153", "title": "What the minimizer hands to the function", "statement": "Minimizer passes the user's function and its derivative to GSL through callbacks. For vectors whose entries are next to each other, the function is evaluated at exactly the entries of the vector of GSL; the derivative is stored in the vector for it, whatever that held before and whatever its stride, with nothing else overwritten; value and derivative together are the same as one after the other; and gradientNorm is the Euclidean length of the derivative, so it is zero just where the derivative vanishes. Found not to hold: for a vector with another stride the function gets numbers that are not its entries.", "quantifier": "all functions and derivatives, all numbers of variables, all vectors, strides and contents of fresh memory", "why_tests_cant": "functions, sizes and the layout of vectors made by GSL are unbounded", "anchors": ["src/Minimizer.h: myFunction, myDfunction, myFdFunction, Minimizer::gradientNorm"]}
{"id": "C154", "title": "A whole program that evaluates functions given by tables", "statement": "src/Ainur/test.cpp reads the files named by its arguments as one Ainur input and prints a number, two texts, how many entries a vector of expressions has and, if there are two, the numbers they stand for at t = 0.3. Whenever the input gives the four labels, what is printed is the number and the texts as they stand and, for each entry, the number it is once %t is replaced by 0.300000: itself, or what the table of the function that it calls has, in the first line with that argument. With the two input files that come with the program and any table, the number in the table for 0.3 is printed twice; without the table, or with a file that cannot be opened, the program ends with an exception and prints nothing. More tables never change what an accepted input means. Found not to hold: a table without 0.3 is read past its end, with no message; and the number passes through a text with six digits after the point, so that 0.0000001 becomes zero.", "quantifier": "all arguments, contents of files, inputs that are accepted, vectors of expressions and tables", "why_tests_cant": "inputs, tables and vectors are unbounded", "anchors": ["src/Ainur/test.cpp: main, partiallyReadSomething", "src/Ainur/AinurState.h: resolve, expandMacros", "src/Ainur/AinurMacros.hh: valueFromFunction, procNativeMacro", "src/Ainur/prelude.ain", "src/Ainur/input0.ain"]}
{"id": "C155", "title": "A whole program that finds the lowest energy of a matrix in memory", "statement": "examples/testLanczos.cpp fills a Hermitian matrix of 8 rows, converts it to a sparse one and prints the energy and the vector that the Lanczos solver finds for the ground state from a random start vector. At whatever time it is run (the seed is the time), in exact arithmetic, the energy printed is -1/2, which is the lowest eigenvalue, and the vector printed is an eigenvector of length one: zero but for sites 3 and 5, where it has one and the same number. The solver makes only 5 steps; that this is enough holds because the matrix has five different eigenvalues and no start vector that the random number generator can give misses one of them.", "quantifier": "all times at which the program is run, all roundings of the seed and all implementations of LAPACK that do what its documentation says", "why_tests_cant": "a test sees one seed and one LAPACK", "anchors": ["examples/testLanczos.cpp: main", "src/LanczosSolver.h: computeOneState", "src/LanczosCore.h: decomposition", "src/PsimagLite.h: fillRandom", "src/CrsMatrix.h: CrsMatrix(const Matrix&)"]}
{"id": "C156", "title": "Singular values do not depend on the routine, and a whole program that finds them twice", "statement": "The singular values that Svd finds do not depend on the routine named to its constructor (gesdd or the fallback gesvd), on the letter, A or S, or on what the vector and the matrix given for results held before: for every matrix they are the same list. examples/svd.cpp finds those of one matrix of 4 rows and 2 columns with both routines and prints the same two numbers twice, the square roots of 15 + sqrt(221) and of 15 - sqrt(221), each time with an orthogonal matrix.", "quantifier": "all matrices, letters, previous contents and implementations of LAPACK that do what its documentation says and converge", "why_tests_cant": "matrices and implementations of LAPACK are unbounded", "anchors": ["src/Svd.h: operator(), mycall", "examples/svd.cpp: main"]}
{"id": "C157", "title": "Three small whole programs: base64, one random number, and LAPACK called directly", "statement": "examples/base64test.cpp would print, for every text and not only its own, the code with four letters for each three bytes begun and after it the very same text. examples/testLapack.cpp, with any LAPACK that does what its documentation says, never does anything undefined; it ends with status one just if LAPACK does not converge, and with status zero its arrays have the increasing eigenvalues and orthonormal eigenvectors of the symmetric matrix whose elements are five times the random numbers drawn for the places on and below the diagonal. Not true: examples/randomTest.cpp does not use its argument as the seed; for every integer it prints one and the same number, and without an argument its behaviour is undefined.", "quantifier": "all texts; all numbers of rows, states of the random numbers to begin with and implementations of LAPACK; all arguments and roundings", "why_tests_cant": "The program has one text and one size; that the number printed is the same for every argument, and that no implementation of LAPACK makes the program overrun its arrays, are statements about all of them.", "anchors": ["examples/base64test.cpp: main", "examples/randomTest.cpp: main", "examples/testLapack.cpp: main", "src/PsiBase64.h: Encode, Decode", "src/Random48.h: seed"]}
