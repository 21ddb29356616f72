# Design

This directory holds a Lean 4 model of PsimagLite (pinned source in /repo) and
machine-checked theorems about it.

## Layout

* `properties.jsonl`: the properties, one per line.
* `lean/Verif/<Area>/Model*.lean`: executable definitions, one per modelled C++
  function, each citing file and lines of /repo. Where a definition simplifies
  the code, its comment says so.
* `lean/Verif/<Area>/Spec.lean` (or the head of the property file): the
  vocabulary the property theorems are stated in, independent of the model's
  helpers. Mathlib's own notions (`Matrix`, `List.Perm`, `Polynomial.Chebyshev`,
  `List.splitOnP`, orders, derivatives) are used where they exist.
* `lean/Verif/<Area>/Lemmas*.lean`: helper lemmas.
* `lean/Verif/<Area>/Props*.lean`: the property theorems (their comments begin
  with the property id in bold) and, at the end or beside each, concrete
  instances showing that the hypotheses are met.
* `lean/Verif/Util/`: loops (`loopN`, `whileN`), strings, outcomes.
* `seeded/LOG.jsonl`: wrong programs tried against the theorems.
* `MANIFEST.json`: property -> theorems.

## Conventions

* Numbers. `SizeType` is 64 bits. Sums and products of sizes are taken without
  overflow unless a model says otherwise; subtractions that could go below zero
  wrap (`sub64`) or are shown not to. `BitManip`, `Random`, `Base64`,
  `MemResolv`, `IoNg` (lengths of boolean vectors) and `GemmR` (`int` positions)
  model fixed widths. Floating point types are an abstract commutative (star)
  ring, an ordered field, the reals or the complex numbers: rounding is not
  modelled, except where a property is about a cutoff or a tolerance, which is
  then a parameter.
* Outcomes. Undefined behaviour (access out of range, division by zero, null
  pointer, overflow of `int`), a failed assertion and a thrown exception are
  outcomes of the model (`Option`, `Except`, `Out`), never silently defined. A
  theorem that says `= some r` or `= .ok r` therefore says that none happens.
* Loops are structural recursions or folds over the same counters; what a loop
  changes is passed explicitly. Loops without a counter get a budget, running
  out of which is `none`; the theorems show that it does not run out.
* Sorting. `std::sort` is not stable, so it is a relation: any sorted
  permutation. Theorems hold for all of them.
* Concurrency. Threads and ranks are transition systems; theorems quantify over
  all schedules. A step is one access to shared data or one message.
* Files. A crash may happen after any operation; the file is what the operations
  so far (or the last flush) left.
* When the code does not satisfy a property, a theorem with suffix `_fails`
  refutes it with a witness, and what holds is proved. A property of which a
  part of the intended statement is refuted has status `partial` if the
  remaining claim no longer says what a user would rely on, and its theorem the
  suffix `_partial`. Where `properties.jsonl` itself states the defect, the
  claim is complete and has status `proved`.

## Trusted base

* Lean 4.33.0 kernel, Mathlib as installed.
* Axioms: only `propext`, `Classical.choice`, `Quot.sound`. No axioms of ours,
  no `sorry`, no `native_decide`, no `bv_decide`.
* The faithfulness of the hand translation from C++ to Lean, definition by
  definition, as cited in the comments. Nothing was built or run.
* Libraries, represented by their documented behaviour: the C++ standard library
  (containers, strings, `std::sort`, `std::map`, streams), HDF5 (a map from paths
  to typed data sets with the calls that are made), MPI point-to-point messages
  (reliable, in order for each source and tag), pthreads (`create`, `join`), BLAS
  `GEMM` on a block, LAPACK (eigenvalues and eigenvectors, inverses) and GSL
  (roots). The results of LAPACK and GSL are hypotheses of the theorems that need
  them (for example `U Uᵀ = 1`, `T = U D Uᵀ`), not axioms.
* Boost Spirit Qi, whose parsers (sequence, alternative, list, lexeme, skipper) are
  modelled by their documented behaviour for the two Ainur grammars.

## Properties

The theorems of each property are listed in MANIFEST.json.

| Id | Title | Area | What is modelled and how it is proved | Status |
|----|-------|------|----------------------------------------|------|
| C01 | Base64 round trip | `Base64` | bytes as Nat<256 lists, Encode/Decode loops as structural recursion with the same 3/4-byte buffers; induction on the input in steps of 3. | proved |
| C02 | Bit counting | `BitManip` | BitVec 64; SWAR steps proved by splitting into digit sums, Kernighan loop by well-founded recursion. | proved |
| C03 | Default load balancer is a partition | `LoadBalancer` | integer arithmetic of the ctor and taskNumber; bijection by div/mod. | proved |
| C04 | Weighted load balancer is a partition with the greedy bound | `LoadBalancer` | ctor loop as fold over (stable sorted) weights; invariant on loads. | proved |
| C05 | Parallel loop executes each task exactly once under every schedule | `Parallel` | small-step machine: one program counter per worker, any scheduler; invariant: executed = exactly the tasks behind each counter. | proved |
| C06 | Parallel loop with independent tasks equals the serial loop | `Parallel` | same machine with a store; commuting writes, invariant. | proved |
| C07 | Per-thread storage never aliases or overflows | `Concurrency` | functions as defined; case analysis. | proved |
| C08 | Gather delivers every rank's block to the root | `Gather` | ranks and channels as a transition system with any schedule; invariant. | partial |
| C09 | Dense to CSR and back | `Crs` | CSR as (nrow,ncol,rowptr,colind,values); dense as function; induction over rows. | proved |
| C10 | CSR matrix-vector product | `Crs` | row loops as folds; induction. | proved |
| C11 | CSR multiply | `Crs` | code loop with ptr/index/temp arrays; loop invariant per row. | proved |
| C12 | CSR conjugate transpose | `Crs` | column-bucket pass; induction. | proved |
| C13 | CSR linear combination | `Crs` | row loops; induction. | proved |
| C14 | CSR well-formedness is preserved | `Crs` | Valid predicate, shown for each operation, then induction on operation sequences. | partial |
| C15 | Coordinate constructor of CSR | `Crs` | code loop; negation on witness, partial theorem. | partial |
| C16 | CSR external (Kronecker) product | `Crs` | row loops with index arithmetic. | proved |
| C17 | Matrix predicates decide what they say | `Crs` | boolean loops; iff theorems, negation witness where wrong. | partial |
| C18 | CSR text round trip | `Crs` | token stream; parser inverse of printer. | proved |
| C19 | Dense matrix algebra | `Dense` | column-major storage; entrywise theorems over a commutative ring with conjugation. | proved |
| C20 | Sparse vector canonicalisation | `SparseVec` | stable sort + merge loop; entrywise sum. | proved |
| C21 | Sparse row accumulation | `SparseVec` | same. | proved |
| C22 | Indirect sort | `SortM` | `std::sort` as any sorted permutation of (key, index) pairs (so unstable sorts are covered). | proved |
| C23 | Permutation enumeration | `Perms` | increase as coded; lexicographic successor theorem, then enumeration by well-founded induction. | proved |
| C24 | Tuple enumeration by sum | `SumDec` | recursion as coded. | proved |
| C25 | Index packing | `SumDec` | div/mod. | proved |
| C26 | String split | `StrUtil` | loop as coded over List Char; spec via maximal runs. | proved |
| C27 | Integer helpers | `StrUtil` | loops as coded. | proved |
| C28 | Chain geometry connector handles | `Geom` | functions as coded on Nat; arithmetic. | proved |
| C29 | Ladder geometry connector handles | `Geom` | functions as coded on Nat; div/mod arithmetic. | proved |
| C30 | Star geometry connector handles | `Geom` | as coded. | proved |
| C31 | Ladder with bath | `Geom` | as coded. | proved |
| C32 | System/environment split | `Geom` | loops as coded building index lists; permutation theorem; negation witness. | proved |
| C33 | K2NiF4 orbital indexing | `Geom` | as coded. | proved |
| C34 | Lattice symmetries | `Geom` | as coded. | proved |
| C35 | Connector matrices are Hermitian | `Geom` | as coded with star ring. | proved |
| C36 | Prefix (Karva) expression evaluation | `Ast` | loop as coded; induction on levels of a forest. | proved |
| C37 | Predicate language | `Predicate` | string level parser as coded; grammar printer in spec. | proved |
| C38 | Operator expressions | `Canonical` | as coded; operator algebra a ring; negation witness + partial. | proved |
| C39 | Operator spec parsing | `Labels` | string level. | proved |
| C40 | Minimal standard generator | `Random` | Int 32 arithmetic with overflow checks explicit. | proved |
| C41 | Mersenne twister | `Random` | BitVec 32 arrays; refinement to infinite recurrence. | proved |
| C42 | Bisection | `Numeric` | over the reals, loop with fuel=maxIter. | proved |
| C43 | Akima spline | `Numeric` | over a linear ordered field / reals. | proved |
| C44 | Chebyshev polynomials | `Numeric` | recursions as coded vs Mathlib Polynomial.Chebyshev. | proved |
| C45 | Fermi function | `Numeric` | reals with exp. | proved |
| C46 | Memory image relocation | `MemResolv` | addresses as Int, chunk table. | proved |
| C47 | Input file: repeated labels | `InputNg` | map keyed by label@n; induction over reads. | proved |
| C48 | Input label order is a strict weak order | `InputNg` | comparison as coded; order axioms. | proved |
| C49 | Ainur variables | `Ainur` | state machine; induction over histories. | proved |
| C50 | Ainur macro expansion | `Ainur` | loop as coded; negation witness + partial. | proved |
| C51 | Keyed storage round trip | `IoNg` | the calls made to HDF5 on a finite map from paths to data sets; induction over histories; negation witnesses. | proved |
| C52 | Crash detection canary | `IoNg` | the file as left by every prefix of the operations; negation witnesses for what is not detected. | proved |
| C53 | Boolean vector storage | `IoNg` | byte lists as coded. | proved |
| C54 | Stack storage order | `IoNg` | stack as list. | proved |
| C55 | Blocked matrix multiply tiling | `GemmR` | tile arithmetic + sequential execution in any order. | proved |
| C56 | Lanczos recurrence | `Krylov` | vectors over a real or complex field without rounding; invariant over the steps: orthonormal vectors and the three-term recurrence. | proved |
| C57 | Chebyshev moments | `Krylov` | as coded; the recurrence is compared with Mathlib's Chebyshev polynomials of the operator. | partial |
| C58 | Tridiagonal dense form | `Krylov` | as coded. | proved |
| C59 | Runge-Kutta order | `Extrap` | as coded over a field of characteristic 0. | proved |
| C60 | Solver parameter lookup | `SolverP` | as coded over a finite map of input labels. | proved |
| C61 | Option sets | `SolverP` | as coded. | proved |
| C62 | Spectral function accumulation | `Spectral` | plots as coded over the reals and the complex numbers; the loop invariant gives the grid; the sum over poles is the element of the resolvent by a change of basis. | proved |
| C63 | Linear prediction | `Extrap` | as coded; the normal equations are compared with least squares; roots as elements of a field. | proved |
| C64 | Bra and ket labels | `Labels` | string level. | proved |
| C65 | Ainur vectors, matrices and ellipsis | `Ainur` | conversion of tokens as coded; induction over the tokens. | proved |
| C66 | Text replacement and basename | `StrUtil` | loops over strings as coded; the specification is an inductive relation with a unique result. | proved |
| C67 | Fringe and substitute sites | `Geom` | as coded; the fringe of the documentation is the specification; violated cases are exhibited. | partial |
| C68 | Honeycomb lattice | `Geom` | tests as coded on columns and rows, with wrapping differences; arithmetic; violated cases are exhibited. | proved |
| C69 | Ladder with diagonals | `Geom` | as coded; reduction to the ladder without diagonals; arithmetic; violated cases are exhibited. | proved |
| C70 | Text files: labels, instances and vectors | `IoSimple` | streams as text with the flags of the standard; the specification works on words and lines; violated cases are exhibited. | proved |
| C71 | Reading numbers and complex numbers | `Cmplx` | the four readers as coded, on text, with the C library conversion and stream extraction; the specification is the grammar and value of decimal numbers. | proved |
| C72 | Connections of any range | `Geom` | constructor, expansion of the compact form and cache as coded; the specification is the last value in the list of entries. | proved |
| C73 | Arithmetic of vectors | `Vec` | a memory of named vectors in which expressions refer to operands by name, so that aliasing is visible; the specification is the value at every position. | proved |
| C74 | Text of vectors, pairs and matrices | `TextIo` | operators on streams of characters as coded; what can be read back is a predicate closed under vectors and matrices. | proved |
| C75 | Energies and states of the Lanczos solver | `Krylov` | the solver as coded with LAPACK as a parameter; run reduced to the Lanczos recurrence of the decomposition, Ritz vectors from an orthonormal basis of the space of powers. | proved |
| C76 | Broadcasts and reductions over MPI | `Collective` | the buffers of all ranks as a list, MPI calls as functions of that list; induction over positions and ranks. | proved |
| C77 | Numbers, matrices and maps of input files | `InputNg` | the functions of the reader with the conversion of a number as a parameter; reduced to the history of calls of C47, loops over elements by an invariant. | proved |
| C78 | Grammar of Ainur files | `Ainur` | the parser rule by rule with the rules of Boost Spirit Qi; gaps and layouts of statements as inductive predicates; both directions (what is written is read, what is accepted was written) by induction over the statements | proved |
| C79 | Connections broken by a split | `Geom` | the broken connections as a finite set of pairs; an injective map from it to the numbers below maxConnections | proved |
| C80 | Eigenvalues, exponentials, inverses, singular values and rotations of matrices | `Lapack` | LAPACK as a variable with the documented contract as hypothesis; loops with invariants; the spectral theorem for exponentials and for the existence of such libraries | proved |
| C81 | Eigenvalues of tridiagonal matrices, and Lanczos with any LAPACK | `Lapack` | LAPACK as a variable with the documented contract as hypothesis; the theorem of C75 instantiated with it | proved |
| C82 | Spectral functions from Lanczos | `Spectral` | powers of the tridiagonal matrix against powers of the matrix on the Lanczos vectors; resolvents on the subspace the matrix maps to itself | proved |
| C83 | Geometry from an input file | `Geom` | a cursor for each label of the file as invariant through the constructors of directions, terms and geometry; values from the theorems of C35 | proved |
| C84 | Connections of a superblock | `Geom` | the lattice closed up over the gap as specification; fringe and substitute sites of C67 put through the cache of values | proved |
| C85 | Matrices from sorted lists of elements | `Crs` | invariant of the two loops with the number of elements before a row | proved |
| C86 | Small CRS matrix of the examples | `Crs` | reduction to the matrix of C10, round trip of token lists, equality with the coordinate constructor | partial |
| C87 | Identifiers of runs | `Host` | generator of C41 and counts of C02; round trip of printing and reading of numbers | partial |
| C88 | Messages of programs | `Host` | invariant over histories of calls and signals; streams with a position | proved |
| C89 | Entries of system files and time | `Host` | reader of the C++ library with its flags; first occurrences | proved |
| C90 | Minimization stops at the first converged point and says so | `Numeric` | the loop with any minimizer; induction over iterations | proved |
| C91 | Loops with OpenMP and the deprecated loops do each task once | `Parallel` | the machine of C05 with any partition of the iterations | proved |
| C92 | Matrices that are windows of a vector | `Dense` | a window and a vector; indices modulo 2^64 | proved |
| C93 | Matrices printed with letters can be read back | `TextIo` | the loop with text and table; invariant: symbols stand for elements; pigeonhole | proved |
| C94 | Random numbers of the C library | `Random` | the generator of POSIX as an affine map modulo 2^48; its period by induction on the powers of two | proved |
| C95 | Momentum meshes and momentum sums | `Geom` | readline without consumption through the file model of C57; grid points by division with remainder; momenta by cases | proved |
| C96 | Messages of an application | `Host` | equalities of texts; split and base64 round trips | proved |
| C97 | Standard output sent to a file | `Host` | an invariant of the event machine: disk text plus buffer is what was printed | proved |
| C98 | Texts of values and of maps | `Host` | the extraction of a word; integers through decimal digits; the file model of InputNg for printed maps | proved |
| C99 | Expressions of dense matrices | `Dense` | the machine of memory cells of the vector expressions with shapes; invariants of loops over elements while the target may be read | proved |
| C100 | Matrices in HDF5 files | `IoNg` | records of fields in the file model of C51; induction over the overwritings with an invariant of the places of the fields | proved |
| C101 | Expressions of sparse matrices | `Crs` | a store of objects by name; each statement refines its meaning for Mathlib matrices, then induction over programs | proved |
| C102 | Chunks and partitions of sparse vectors | `SparseVec` | the scan of findPartition is characterised by an invariant; chunks by counting positions | partial |
| C103 | Messages with vectors and matrices | `Collective` | a queue of tagged messages; a receive takes the first one with its tag; induction over the objects, and the general theorem of C08 for the message formats | proved |
| C104 | Matrices from text files and as bytes | `TextIo` | the text is the one of C74's specification, read back by the same loop; bytes by induction over the elements and the matrices | proved |
| C105 | Vectors of objects overwritten in files | `IoNg` | what a class has to promise is a structure (Obj.Lawful) that matrices and sparse matrices are shown to satisfy; the loops by induction over the entries with disjoint places; then induction over the calls | proved |
| C106 | Functions from files in the input | `Ainur` | std::istream::getline on a stream with its two bits, the loop with a budget of rounds; induction over the lines; the result is compared with the first line that gives the argument | proved |
| C107 | Continued fractions in text files | `IoSimple` | the model of IoSimple; the text of a fraction is read from any place with only blanks before it; the words of a fraction are not the label of a collection, so counting labels finds collection k | proved |
| C108 | Snapshots of memory in files | `MemResolv` | the bytes of the file; reading with the state of the stream, which stops at the first short read; the image is that of C46 | proved |
| C109 | Registering objects for a copy of memory | `MemResolv` | types as a tree, memory as a function from addresses to bytes; what is registered is given to the model of dup of C46 and its specification | proved |
| C110 | Scale and curve of the Chebyshev expansion | `Krylov` | the constructor as decisions about lotaMemory, the scale as two real numbers, the loop of plot over a list; the bound by the spectral theorem and Mathlib's bound of the Chebyshev polynomials | proved |
| C111 | CPUs and stacks of threads | `Parallel` | attributes as optional values, the set of CPUs as a predicate, the loop over threads by recursion; induction over the threads | proved |
| C112 | Output files opened and closed again | `IoSimple` | the object, the stream and the files as a state machine whose calls end normally, with an exception or undefined; induction over the sessions and the writes | proved |
| C113 | Geometries from Ainur inputs | `Geom` | the constructors as computations that read and change the prefix, which is there also after an exception; induction over terms and directions; values by the theorems about cached values | proved |
| C114 | Labels that geometries declare | `Geom` | the declarations as a file of the Ainur grammar, put before the input; induction over declarations and assignments with the specification of Ainur files | proved |
| C115 | Coefficients of linear prediction and predictions without growth | `Extrap` | the constructor and predict2 with LAPACK, BLAS and GSL routines as arguments; the inverse by the contract, the polynomial by its roots, which are closed under conjugation | proved |
| C116 | Integrals | `Numeric` | the calls with the routines of GSL as arguments; integrals of Mathlib as specification | proved |
| C117 | Fits of a curve | `Numeric` | the curve and its derivatives as real functions; HasDerivAt of Mathlib as specification; induction over the points | proved |
| C118 | A Lanczos solver used more than once | `Krylov` | the object as a state; loops that agree on the columns already written give the same; induction over the calls | proved |
| C119 | Objects as groups, enumerations and geometries in files | `IoNg` | labelled members as a list of codecs; induction over the members, then instances for directions, terms and geometries | proved |
| C120 | Geometries as text | `Geom` | loops that append; induction over their lengths, with the cached values of the term | proved |
| C121 | Parallel loops within parallel loops | `Parallel` | small-step semantics of fork and join; diamond-free argument by commuting each step to the front of the serial run; size decreases at each step | proved |
| C122 | What the kernel polynomial method guarantees | `Krylov` | each kernel coefficient is an autocorrelation of a real sequence, so the kernel is a square; orthogonality of the Chebyshev polynomials; density of polynomials with positivity for the limit | proved |
| C123 | Setting the inputs of an expression tree | `Ast` | mutual induction over trees and lists of trees; invariant of the set: places of inputs hold their value | proved |
| C124 | How accurate the Lanczos solver is | `Krylov` | Kaniel-Paige-Saad bound: the energy is the minimum over the space of powers, evaluated at a Chebyshev polynomial of the matrix applied to the start vector, in a basis of eigenvectors; dimension count for the interlacing | proved |
| C125 | Memory images of matrices, meshes and strings | `MemResolv` | the chunks that are registered, in order; the theorem about dup for ordered chunks, and its refusal of others | proved |
| C126 | Exact and Lanczos energies of a matrix in a file | `Whole` | composition of C09, C10, C74, C75, C80, C81 and C124; a Vandermonde determinant gives independence; parity of the random numbers | proved |
| C127 | A whole program with a parallel loop prints the same text under every schedule | `Whole` | composition of the loop under all schedules (C01, C121), the storage of the threads (C07) and the collective operations (C76) | proved |
| C128 | Continued fractions of several files combined and then plotted | `Whole` | induction over the text of a file for the last label; composition of reading (C107) and plotting (C62); rounding of text as an idempotent map | proved |
| C129 | The lowest energy of a random sparse matrix | `Whole`, `Krylov` | invariant of the row being built, by induction over attempts and rows; composition with the theorems on sparse matrices (C12, C13, C17), LAPACK (C81) and the solver (C75); no eigenvector in a space of powers of which one more is independent | proved |
| C130 | A loop with weights in a whole program | `Whole` | refinement of all schedules to one thread (C121) with the partition by the balancer (C04); sums by induction; ten times a 48-bit number is not rounded | proved |
| C131 | The calculator as a whole program | `Whole` | composition of replaceAll, split (C26) and the evaluation of level order (C36); replacing the word %t commutes with reading the words | proved |
| C132 | The kernel polynomial program | `Whole` | the loop of the constructor fails at its first step; plotting fewer than six moments reads past the end (C57) | proved |
| C133 | A loop over Parallelizer2 as a whole program | `Whole` | refinement of every schedule to the serial loop (C06, C91), whose memory is known by induction | proved |
| C134 | A sparse matrix from a file as a whole program | `Whole` | composition of the text format of matrices (C104), the sparse form of a dense matrix (C09) and its product (C10) | proved |
| C135 | Linear prediction as a whole program | `Whole` | composition of the round trip of vectors (C70) with the normal equations and the prediction (C63, C115); uniqueness by strong induction | proved |
| C136 | Decompositions of a number as a whole program | `Whole` | the lists of C24 with a proof, by induction, of their length | proved |
| C137 | A whole program that adds the numbers of its tasks | `Whole` | the fork-join model of C06 and C127 with one partial sum per thread | proved |
| C138 | A whole program that compares products in tiles with BLAS | `Whole` | the model of GemmR of C55 inside the loops of the program; runs are a relation, so that all schedules are covered | proved |
| C139 | Whole programs for options, predicates and integrals | `Whole` | the models of C61, C37 and C116 inside main | proved |
| C140 | A whole program that reads an input file | `Whole` | the grammar and state of Ainur (C63-C65, C78) and the reader of C47 inside main, with both formats | proved |
| C141 | Whole programs that store vectors and read them back | `Whole` | the store of C51, the canary of C52 and the generator of C94 inside main | proved |
| C142 | A whole program that multiplies matrices in parallel with BLAS | `Whole` | the loop of C06 and the product of C55 inside main | proved |
| C143 | A whole program with a loop over processes | `Whole` | the loop over ranks of C05 inside main | proved |
| C144 | A whole program that compares expressions of sparse and dense matrices | `Whole` | the expressions of C99 and C101 inside main, one after the other | proved |
| C145 | Sections for which MPI is disabled | `Concurrency` | the list of labels as a fold of the calls, with the invariant of C07 for the mode of the program | proved |
| C146 | Replacement of labels in expressions | `Canonical` | induction on the number of turns: nothing in what was already replaced begins an occurrence; same relation Replaced as for the replaceAll of PsimagLite | proved |
| C147 | The record of a run in a results file | `IoNg` | the members as fields of a group (C119), with the frame that the time of the end stays free until it is written | proved |
| C148 | The program that multiplies in tiles within a parallel loop | `Whole` | nested fork-join programs: steps on different tiles and actions of different tasks commute, so every schedule equals the serial run, which is the product by C55 | proved |
| C149 | Copies that live as long as the object that made them | `Copy` | invariant over histories: the heap is the program's own objects plus the copies, and the copies are the garbage | proved |
| C150 | Limits of memory | `Host` | case analysis of setrlimit; the fall of the hard limit by induction over calls | proved |
| C151 | The life of an object that writes or reads a file | `IoNg` | refinement: the files and the members of the object against a disk of stores with a mark, each call preserves the relation, then induction over the history | proved |
| C152 | A program that reads a number, a text, a vector and a matrix | `Whole` | composition of the grammar, the state after a file, the conversions and the printing of matrices, over any list of files | proved |
| C153 | What the minimizer hands to the function | `Numeric` | loop invariant of the stores with a stride; sums of squares by induction | proved |
| C154 | A whole program that evaluates functions given by tables | `Whole` | composition of the theorems on Ainur, tables and replaceAll; a monotonicity lemma over the expansion of macros, so that the kernel computes the shipped input once for every disk | proved |
| C155 | A whole program that finds the lowest energy of a matrix in memory | `Whole` | the parts of the start vector in the five eigenspaces, found nonzero from the last bits of the generator's state; a Vandermonde determinant; the theorems on the solver and on sparse matrices | proved |
| C156 | Singular values do not depend on the routine, and a whole program that finds them twice | `Lapack`, `Whole` | the singular values are the roots of a characteristic polynomial, by its law for products in the other order; existence from the eigenvectors of A*A and the extension of an orthonormal family to a basis | proved |
| C157 | Three small whole programs: base64, one random number, and LAPACK called directly | `Whole` | base64 from the round trip of C01; the loops that make the matrix symmetric by an invariant over rows and columns, then the contract of dsyev; the number from the model of the C library's generator (C94) | proved |

## What is modelled, by file

| File | Modelled | Not modelled |
|------|----------|--------------|
| PsiBase64.h/.cpp | Encode, Decode | writing to and from streams |
| BitManip.h | count, countKernighan, for 32 and 64 bits | |
| LoadBalancerDefault.h, LoadBalancerWeights.h, LoadBalancerMpi.h | all | |
| PthreadsNg.h, NoPthreadsNg.h, Parallelizer2*.h, InterNodeMpi.h | the loops over tasks | setting of affinities, names of threads |
| Concurrency.h | storageSize, storageIndex, mode, initialization of thread numbers | MPI communicators |
| MpiYes.h | pointByPointGather, send, recv of vectors, bcast, reduce, allReduce | MPI itself, communicators |
| CrsMatrix.h | constructors, conversions, products, sums, transposes, predicates, text, assignment from a list of elements | eigenvalues |
| ApplicationInfo.h, examples/checkRunId.cpp | identifiers of runs, convertToLuint | clock, host name, printing |
| ProgressIndicator.h, Profiling.h | messages, buffer, signals, profiles | precision of numbers, text on the error stream |
| MemoryUsage.h, MicroArchitecture.h | all | the system files themselves, the clock |
| Minimizer.h | simplex, conjugateGradient, status | GSL, messages |
| Parallelizer2OpenMP.h, Pthreads.h, NoPthreads.h | the loops over tasks | the runtime of OpenMP, affinities |
| MatrixNonOwned.h | all | |
| Geometry/GeometryEx.h, GeometryDca.h | mesh, kSum, kSustract | |
| RedirectOutput.hh | all | static members defined in the header without inline: two units including it do not link |
| PsimagLite.h (PsiApp), TypeToString.h, Map.h | constructor, printCmdLine, checkMicroArch, echoBase64, base64encode, typeToString, printMap | |
| Matrix.h (closures, +=, read, write, overwrite) | all overloads of assignment from expressions | scalarProduct of two matrices cannot be instantiated (it uses private data of another class) |
| CrsMatrix.h (read, write, overwrite) | all | |
| CrsMatrix.h (closures, operator==, setCol, setValues, send, recv, bcast) | all | |
| SparseVector.h (findPartition, toChunk, operator<<) | all | |
| Matrix.h, MpiYes.h (send, recv, bcast, allReduce of vectors and matrices) | all | MPI itself |
| Matrix.h (constructor from a file, print with eps, print/read of a descriptor, conversion, swap, clear, ==) | all | |
| Io/IoNgSerializer.h (overwrite of vectors of objects, write of vectors and pairs with ALLOW_OVERWRITE) | all | HDF5 |
| Ainur/AinurMacros.hh (AinurFunction) | all | std::atof, std::to_string |
| ContinuedFraction.h, ContinuedFractionCollection.h (files) | constructors from a file, write | printing of numbers; LAPACK is a variable |
| MemResolv.h (files) | save, constructor from a file, saveChunkInfo, loadChunkInfo, stringEqual, get | finish (nothing calls it), printing |
| MemResolv.h (memResolv) | numbers, pairs, vectors, vectors of pointers, arrays, refusal of complex numbers and maps | strings, messages, classes with their own memResolv |
| ChebyshevSolver.h (constructor, computeAandB), ChebyshevSerializer.h (plot) | the decisions of the constructors, the scale, the whole curve | writing and reading moments (`write` does not compile: there is no output of a TridiagonalMatrix; the constructor from a file writes to moments of size zero) |
| PthreadsNg.h, Parallelizer2Pthread.h (attributes) | setAffinity, getOneCpuFromSet, getPidAffinity, order of the calls for attributes, creation that fails | messages, Apple |
| Io/IoSimple.h (Out, files) | constructors but the one from a stream, destructor, open, close, printline, write | PSI_PUBSETBUF, precision, operator<<, disk errors |
| Geometry/Geometry.h, GeometryTerm.h, GeometryDirection.h (Ainur) | constructors with prefix, import | LongRange with Ainur, meshes |
| LinearPrediction.h (rest) | constructor, linearPredictionfunction, computeD, predict2 | rounding |
| Integrator.h, GslWrapper.h (integration) | constructor, operator(), toInfinity | special functions of GslWrapper |
| examples/fit.cpp | FitData, MyFunctionTest | reading, printing |
| LanczosCore.h, LanczosVectors.h (object state) | decomposition on a used object, prepareMemory, lanczosVectorsSwap | excitedVector after a swap |
| Geometry.h, GeometryTerm.h, GeometryDirection.h (files, text) | write to IoNg of each class, print, operator<< | Geometry::print (does not compile if used) |
| PthreadsNg.h, examples/nested.cpp | loops created by tasks of loops, the sums of the example | Concurrency set-up of the program |
| ChebyshevSerializer.h | sign, moments and limit of the plots of the kernel polynomial method (on the model of the curves) | rounding |
| AST/Tree.h, AST/Node.h | set, exec and isLinearTree of trees built by hand, shared nodes | verbose output; the nodes IfGtZero and Int, whose code() has another return type than the base class and which do not compile when used |
| LanczosSolver.h, LanczosCore.h | bounds of the error of energies and states, on the model of C75 | rounding |
| Matrix.h, CrsMatrix.h, Geometry/GeometryEx.h memResolv; MemResolv.h strings | chunks that are registered, memory changed, the copy | messages; the warning about reserved memory |
| examples/testLanczosMatrixInFile.cpp | the whole program for a file that can be opened: reading, sparse matrix, random start vector, exact and Lanczos energies | messages; rounding |
| examples/range.cpp | all of main and MyLoop: arguments, loop, sync, text printed | sleep, messages of MPI |
| examples/combineContinuedFraction.cpp, continuedFraction.cpp, continuedFractionCollection.cpp | all of main but getopt | digits of the rows printed by the plots |
| examples/sparseSolverTest.cpp, src/DavidsonSolver.h | all of main but getopt; computeOneState | negative -n or -c; the unused private functions of DavidsonSolver |
| examples/loadImbalance.cpp | all of main | negative numbers of threads or tasks |
| examples/calculator.cpp | all of main | rounding, the conversion of numbers out of the range of an integer |
| examples/kernelPolynomial.cpp | main after the options | parsing of the options, reading of the file (any outcome) |
| examples/testParallelizer2.cpp | all of main | |
| examples/testCRSMatrix.cpp | main with a file name, testMultiply, fillRandomVector | the mode with a random matrix |
| examples/linearPrediction.cpp | main after the options | getopt |
| examples/sumDecomposition.cpp | all of main | negative sizes |
| examples/threads.cpp | all | |
| examples/testGemmR.cpp | all | rounding, negative block sizes |
| examples/options.cpp, examples/testPredicate.cpp, examples/integrator.cpp | all | texts of error messages |
| examples/testInputNg.cpp, src/AnsiColors.h | all | the map that Ainur mode fills but never reads |
| examples/testIoNgBoolean.cpp, examples/testIoNg.cpp | all | |
| examples/isBlasThreaded.cpp, examples/internode.cpp, src/InterNodeSerial.h | all | |
| examples/closuresTest.cpp | testCrsMatrix, createRandomCrs, checkCrs | testVector, testMatrix (they print the values of literals) |
| src/LabelDisabled.h | all | |
| src/ApplicationInfo.h | write, finalize, constructor | printInit, printFinalLegacy (they print the clock), setEnv, hostname |
| examples/testGemmR2.cpp | main, equalMatrices, fillRandom | rounding; the race on the generator (any draws are allowed) |
| src/DeepCopyOrNot.h | all | copy constructors that throw |
| src/Limit.h | memory (both), checkRet | the text of errno; failures of getrlimit |
| src/Io/IoNgSerializer.h, src/Io/IoNg.h | constructor, destructor, open, close, flush, filename, createGroup, doesGroupExist as one object's life | several objects at once on one file |
| src/Ainur/testReal.cpp | all | standard error |
| src/Minimizer.h | myFunction, myDfunction, myFdFunction, gradientNorm | printIntermediate |
| src/Ainur/test.cpp | main, partiallyReadSomething | - |
| examples/testLanczos.cpp | main | printing |
| examples/svd.cpp | main | printing |
| examples/base64test.cpp | main | printing |
| examples/randomTest.cpp | main | printing |
| examples/testLapack.cpp | main | messages |
| SampleCRSMatrix.h | product, save, read, fillMatrix | printing |
| Matrix.h | storage, algebra, transposes, predicates, exponentials of the diagonal form, text, exp, expIpi, inverse, rotate, symbolicPrint | |
| Matrix.cpp, Svd.h | diag, Svd | geev (never called) |
| Vector.h | expressions, products, norms, sums, search, text | |
| SparseVector.h, SparseRow.h, SparseRowCached.h, Sort.h | all | |
| Permutations.h, SumDecomposition.h, PackIndices.h | all | |
| PsimagLite.cpp | split, atoi, atof checks, replaceAll, basename, log2Integer, isAnInteger | expression parser for numbers in scientific notation |
| Geometry/LongChain.h, Ladder.h, LadderX.h, Star.h, LadderBath.h, Honeycomb.h, KTwoNiFFour.h | connections, directions, handles, fringe, substitutes, reflections, translations, maxConnections (not of Honeycomb.h) | |
| Geometry/Geometry.h, GeometryTerm.h, GeometryDirection.h | split, connectors, the cache of values, constructors that read input files, values and connections of superblocks, connectionKind | reading of long range geometries through Geometry.h, printing, GeometryDca.h, GeometryEx.h |
| Geometry/LongRange.h | constructor, compact form, values, symmetries | messages, printing |
| AST/*.h | evaluation of prefix expressions | functions of floating point beyond the arithmetic |
| CmplxOrReal.h, Complex.h (stringToComplex), Ainur/AinurComplex.hh | reading of complex numbers | rounding, overflow |
| PredicateSimple.h, PredicateAnd.h, PredicateAwesome.h | parsing and evaluation | |
| CanonicalExpression.h, QuasiCanonical.h | terms, parentheses, evaluation | |
| OneOperatorSpec.h, GetBraOrKet.h | all | |
| RandomForTests.h, MersenneTwister.* | all | |
| Random48.h, fillRandom of PsimagLite.h | all | the code of the C library (its specification is modelled) |
| RootFindingBisection.h, AkimaSpline.h, Fermi.h, ChebyshevFunction*.h | all | |
| MemResolv.h | push, dup, save, load | file system calls |
| InputNg.h | reading of files, order of labels, readline, read of vectors, matrices and maps | the switch to Ainur |
| Ainur/AinurState.h, AinurMacros.hh, AinurConvert*, AinurSpirit1.cpp, AinurLexical.h | variables, macros, vectors and matrices, ellipsis, grammar (with the rules of Boost Spirit Qi) | dead code (AinurStore, AinurReadable, AinurStatements) |
| Io/IoNg.h, IoNgSerializer.h, Stack.h | write, read, overwrite, canary, boolean vectors, stacks | attributes |
| Io/IoSimple.h | writing of scalars and vectors, readline, advance, count, read of vectors | matrices, moves of the file position |
| GemmR.h | tiling | |
| TridiagonalMatrix.h, TridiagonalMatrix.cpp, LanczosCore.h, LanczosVectors.h | buildDenseMatrix, diag, decomposition, one step, reorthogonalization, Ritz vectors | `ground` (never called) |
| LanczosSolver.h | computeOneState, computeAllStatesBelow, test of convergence | messages |
| ChebyshevSolver.h, ChebyshevSerializer.h | one step, decomposition, kernels, plots | |
| RungeKutta.h, LinearPrediction.h | all but printing | |
| ContinuedFraction.h, ContinuedFractionCollection.h | constructor, iOfOmega, plots, accumulation | files |
| ParametersForSolver.h, Options.h, LabelDisabled.h | all | |

Not modelled at all: anything whose result depends on rounding or on the inside of
LAPACK, BLAS, GSL or the FFT; formatting of real numbers; code that does not compile (AinurStore.h, AinurReadable.h,
AinurStatements.h).

## Findings

Defects of the code found while modelling it. Those with a theorem name are
proved in the model.

* Identifiers of runs convert up to twenty digits with `atol`, which is undefined when
  they do not fit (`Host.run_id_overflow_fails`).
* Messages. `printline` rewinds a stream but does not empty it (`Host.stream_reuse_fails`);
  `printMemoryUsage` prints and then overwrites the buffer (`memory_active_fails`), also in
  processes that should be silent (`memory_silent_fails`); a signal can tear a line
  (`signal_torn_fails`). `MemoryUsage::update` does not end if a line is too long
  (`update_long_fails`); an entry of blanks is one blank (`entry_blank_fails`); `millis`
  gives seconds (`millis_fails`).
* `Minimizer::conjugateGradient` returns 0 both for an error and for convergence at the first
  iteration (`Numeric.minimizer_return_fails`); `simplex` never returns a negative number, which
  examples/minimizer.cpp tests (`simplex_nonneg`, `simplex_silent_fails`); vectors of another size
  are undefined (`minimizer_size_fails`); on exceptions and early returns vectors of GSL leak.
* `numberOfThreads` with OpenMP is 1 outside of the loop (`Parallel.openMP_numberOfThreads_fails`);
  the deprecated threads do nothing with zero threads (`oldPthreads_zero_fails`). The registry of
  code sections in Parallelizer.h cannot be instantiated (no default constructor, no definition).
* `MatrixNonOwned` refuses empty windows and accepts some that wrap (`Dense.view_empty_fails`,
  `view_wrap_fails`).
* `Random48` objects share the state of the C library: making one restarts all others
  (`Random.objects_share_fails`); `seed()` only stores (`set_seed_fails`); there are 10001 streams
  in all (`make48_streams`, `make48_collide_fails`).
* Meshes of more than 2^31 points convert the index to `int` and give vectors outside the zone
  (`Geom.mesh_wide_fails`); `kSum` has no range check (`kSum_range_fails`).
* `printCmdLine` does not quote: arguments with blanks cannot be told apart (`Host.app_cmdLine_fails`);
  `typeToString` of a text with blanks is cut at the first (`Host.ttos_truncates_fails`).
* A redirected program that crashes can lose everything it printed (`Host.redirect_crash_fails`).
* `Matrix::operator+=` compares numbers of elements, not shapes, and changes the shape before it throws
  (`Dense.shapes_fails`); `x = x(i,j) * x` reads the scalar again after it changed (`Dense.malias_fails`).
* `Matrix::read` and `CrsMatrix::read` of empty matrices keep what the object held (`IoNg.read_old_fails`);
  overwriting a complex matrix keeps the old elements (`IoNg.complex_over_fails`); overwriting a `CrsMatrix` that
  is not in the file stores nothing and says nothing (`IoNg.crs_over_new_fails`).
* `CrsMatrix::operator==` compares storage (`Crs.equal_fails`); `x *= ` an element of x (`Crs.own_factor_fails`);
  `setCol`/`setValues` are off by one (`Crs.set_check_fails`).
* `SparseVector::findPartition` refuses a vector whose elements are all at the beginning of a part
  (`SparseVec.chunk_begin_fails`) and accepts one that reaches into the next part (`SparseVec.chunk_end_fails`).
* `MPI::send` of a vector sends its size as an `int`, `MPI::recv` receives it into a `SizeType`
  (`Collective.vec_old_fails`); `bcast` of complex matrices does not send sizes (`Collective.bcastMatComplex_fails`);
  `allReduce` of matrices neither accepts empty ones nor compares shapes (`Collective.allReduceMat_empty_fails`,
  `Collective.allReduceMat_shape_fails`).
* `Matrix(std::ifstream&)` uses dimensions without a value if the file is too short (`TextIo.file_short_fails`), and does not
  notice that it ends early (`TextIo.file_truncated_fails`); `Matrix::read(int)` ignores what `::read` returns
  (`TextIo.fd_empty_fails`); `Matrix::print(os, eps)` compares the squared modulus of complex elements
  (`TextIo.print_complex_fails`).
* `IoNgSerializer::write` of a vector of objects with `ALLOW_OVERWRITE` does not make the group (`IoNg.allow_new_fails`), and
  with sparse matrices does not store new entries (`IoNg.allow_longer_fails`); `overwrite` of a vector relies on `write`
  throwing (`IoNg.silent_write_fails`).
* `AinurFunction` ignores its separator (`Ainur.comma_fails`), checks columns with `>` instead of `>=`
  (`Ainur.short_line_fails`), dereferences the end for an argument it does not have (`Ainur.missing_argument_fails`), does not skip
  lines of blanks (`Ainur.blank_line_fails`) and never ends on a long line (`Ainur.long_line_fails`).
* `ContinuedFraction(IoSimple::In&)` rewinds the file if it has no `#FreqEnum=`, so the second fraction gets the weight of the first
  (`IoSimple.old_format_fails`); an empty collection cannot be read (`IoSimple.empty_collection_fails`).
* A snapshot that is cut short is loaded without any error (`MemResolv.unchecked_fails`, `MemResolv.truncated_fails`).
* `MemResolv` never calls `finish`, so chunks are copied in the order of registration, and vectors below which their data lies
  (`MemResolv.local_fails`) and nested vectors (`MemResolv.nested_fails`) are refused; the second member of a pair is looked for at
  byte `sizeof(FirstType*)` (`MemResolv.pair_fails`).
* `ChebyshevSolver` looks for the bounds of the spectrum with default parameters, for which `lotaMemory` is false, and this is
  refused: the constructor always throws (`Krylov.chebCtor_fails`).  The bounds are multiplied by three, which is wrong if all
  energies have the same sign (`Krylov.scale_positive_fails`).
* `ChebyshevSerializer::plot` writes past the end of an empty result if the step is larger than the interval
  (`Krylov.plot_step_fails`).
* `PthreadsNg` and `Parallelizer2` set the size of the stack before `pthread_attr_init`, so that it is lost
  (`Parallel.stack_fails`), and join threads whose creation has failed (`Parallel.create_fails`).
* `IoSimple::Out` loses everything written after a second `open` without `close` (`IoSimple.open_twice_fails`) and what is written
  first after `close` (`IoSimple.write_closed_fails`); it follows a null pointer before `open` (`IoSimple.not_opened_fails`).
* If the constructor of a geometry throws, `prefix()` of the input is not restored (`Geom.prefix_kept_fails`), so that a program that
  catches the exception and reads on asks for labels of that term.
* `Geometry::import` does not declare all labels that geometries read (`Geom.import_fails`); an input has to declare them, and must
  not declare the others again.
* The constructor of `LinearPrediction` does not look at `info`: if the normal equations have no unique solution, as for data that
  follow a shorter recurrence, the coefficients are what LAPACK left (`Extrap.fit_singular_fails`, `Extrap.geometric_singular`).
* `LinearPrediction::linearPredictionfunction(y, p)` uses the length of `y` only, and the values of the object
  (`Extrap.refit_own_fails`).
* `LinearPrediction::predict2(p)` has undefined behaviour unless `p` is the number of coefficients (`Extrap.predict2_count_fails`).
* `Integrator` returns what GSL left also if GSL failed; the failure is only printed (`Numeric.integral_error_fails`).
* In examples/fit.cpp `dfGamma` has a wrong sign (`Numeric.gamma_fails`), so that the gradient that `fit2` uses is wrong
  (`Numeric.grad_fails`); `fit2` is not called.
* `LanczosCore::decomposition` takes a reference to `steps_` and stores the number of steps done in it, so that a used object can stop
  earlier than a new one (`Krylov.again_fails`).
* An enumeration is stored as one byte in HDF5 files, so values of 256 and more do not come back (`IoNg.enum_fails`).
* The `operator<<` of a direction treats every direction of a geometry as one of matrices, because its degrees of freedom are always
  specific, and with one orbital prints `#GeometryMatrixSize=0` and no numbers (`Geom.dir_numbers_fails`).
* Tasks of nested loops that add to one shared number lose updates under some schedules (`Parallel.shared_fails`).
* Without a kernel (option of ChebyshevSerializer::plot) the plot of a density can be negative (`Krylov.dirichlet_fails`).
* `Tree::set` silently skips inputs numbered 10 to 255 and gives input 256 the value of input 0, since the code of an input is one character (`Ast.set_beyond_fails`, `Ast.set_alias_fails`).
* `CrsMatrix::memResolv` registers the data of the first vector before the second vector, so `dup` refuses every sparse matrix that is not empty (`MemResolv.crs_fails`).
* `MemResolv::memResolv` of a string assumes the old layout of strings: short strings are refused by `dup`; of long ones the length is changed as if it were a pointer, and four bytes before the characters are overwritten (`MemResolv.short_string_fails`, `MemResolv.long_string_fails`).
* `GeometryEx::memResolv` asserts that it was told its size, which the default argument of `MemResolv::memResolv` never does (`MemResolv.mesh_default_fails`).
* `testLanczosMatrixInFile` prints 0 and 1 as energies of the 2 by 2 unit matrix (`Whole.lanczos_equal_fails`), throws for more than 200 rows (`Whole.lanczos_big_fails`) and writes out of range for one row (`Whole.lanczos_one_fails`).
* The example range is undefined with MPI, since `allReduce` of a SizeType writes 64 bits into an int, and its squares are multiplied by the number of processes (`Whole.Range.range_mpi_fails`, `Whole.Range.range_mpi_squares_fails`).
* Combining a Matsubara fraction with a real one gives a file whose plot depends on the order of the files (`Whole.Combine.combine_order_fails`).
* `sparseSolverTest` prints as the energy a value strictly above the lowest eigenvalue for every matrix of 3, 4, or more than 5 rows whose powers are independent (`Whole.Sparse.energy_fails`, `Krylov.ground_inexact_fails`): for the ground state the solver never compares energies; with one row it has undefined behaviour (`Whole.Sparse.one_row_fails`).
* `loadImbalance` prints a wrong sum for more than 65536 tasks, since `result` is an `int` (`Whole.Imbalance.imbalance_overflow_fails`), and has undefined behaviour with no threads (`Whole.Imbalance.imbalance_zero_fails`).
* `calculator` prints 1 for `/:1:0.0005` and ignores words after a complete expression without a message (`Whole.Calculator.calculator_examples_fail`, `Whole.Calculator.calculator_small_fails`).
* `ChebyshevSerializer(io)` stores moments into a matrix that has no elements, so `kernelPolynomial` never prints a curve (`Whole.Kernel.kernel_never_fails`).
* `testParallelizer2` reads an empty vector with no tasks (`Whole.Parallel2.parallel2_empty_fails`), divides by zero with pthreads and no threads (`Whole.Parallel2.parallel2_zero_fails`).
* `testCRSMatrix` reads past the end of its vector for a matrix with more columns than rows (`Whole.CrsTest.crs_wide_fails`) and uses sizes that were never set if the file cannot be opened (`Whole.CrsTest.crs_closed_fails`).
* `linearPrediction` accepts more coefficients than half of the points and then uses numbers before the first (`Whole.Linear.linear_many_fails`); making the coefficients again in each round changes nothing (`Whole.Linear.refit_same`).
* `SumDecomposition` counts with an `int`: more than 2147483647 decompositions are undefined behaviour (`Whole.Decompose.decompose_overflow_fails`).
* examples/threads.cpp gives its sum back as an `int`: wrong from 65537 tasks on (`Whole.Threads.threads_negative_fails`).
* examples/testGemmR.cpp never ends with a block size of zero, and overflows with the largest `int` (`Whole.Gemm.gemm_zero_fails`, `Whole.Gemm.gemm_overflow_fails`).
* InputNg reads the last character of a file twice, so that an Ainur file whose last line has no end of line is refused (`Whole.Input.input_lastLine_fails`).
* The comparison of testIoNgBoolean prints OK also after DIFFER and reads a shorter vector out of range (`Whole.Bools.compare_ok_fails`).
* `norm2` of a CSR matrix with an element stored in two parts is wrong (`Crs.norm2_twice_fails`).
* isBlasThreaded with a size of zero takes the address of an element that does not exist (`Whole.Blas.products_empty_fails`).
* With more weights than tasks a thread stops at the first task that is out of range and drops those after it (`Parallel.more_weights_fails`).
* `Parallelizer2::parallelFor` with weights and `InterNode::parallelFor` with weights call `setWeights`, which no balancer has: they do not compile when used.
- `Canonical.replaceEvery_fails`: `CanonicalExpression::replaceAll` looks at the whole string again after each replacement, so it never ends if the label occurs in the printed value (for example label `e` and value `1e+20`, or an empty label).
- `Canonical.replaceEvery_again_fails`: for the same reason it replaces labels that come into being by a replacement, unlike `PsimagLite::replaceAll`.
- `IoNg.end_lost_fails`: `ApplicationInfo::write` after `finalize` silently loses the time of the end if the group does not exist or the time is already there, because `internalWrite` catches the exception of HDF5.
- examples/testGemmR2.cpp: the tasks draw from one generator without a lock, which is a race; and `Whole.Gemm2.tests_missing_fails`: only the first of three arguments is checked to be there.
- `Host.limit_none_fails`, `Host.limit_again_fails`: `Limit::memory(-1)` sets nothing (the soft limit becomes larger than the hard one), and `memory(s)` also lowers the hard limit, so that the limit cannot be raised again; both failures are only printed.
- `IoNg.Life.shut_fails`, `IoNg.Life.reopen_new_fails`, `IoNg.Life.reopen_read_fails`, `IoNg.Life.reopen_write_fails`, `IoNg.Life.excl_destroy_fails`, `IoNg.Life.reader_writes_fails`: `open` keeps the mode of the constructor, so a writer opened again for a new file or to read throws and its destructor then ends the program, while a reader opened again to write loses all; a closed object dereferences a null pointer; ACC_EXCL makes no group for the values, so the destructor throws; a number written with ACC_RDONLY is lost without notice.
- `Whole.Real.real_negative_fails`: a negative integer read into a SizeType is taken modulo 2^64 instead of being refused.
- `Numeric.Gradient.function_stride_fails`: the callbacks of Minimizer copy `v->data` without looking at `v->stride`.
- `Whole.Fun.fun_absent_fails`: a function read from a table dereferences the end of the table for an argument that is not in it.
- `Whole.Fun.fun_small_fails`: the value of such a function passes through `std::to_string`, which keeps six digits after the point.
* examples/randomTest.cpp:9-15 prints the same number for every argument: `seed(s)` (src/Random48.h:53) stores a number that is never used. Without an argument it hands a null pointer to `atoi` (`Whole.Small.random_same_fails`, `Whole.Small.random_none_fails`).
* `SampleCRSMatrix::fillMatrix` counts rows instead of elements, so a second element of
  a row is lost (`sample_fill_fails`), and its product does not check the size of the
  vector (`sample_product_long_fails`).
* Concurrency. With a weight for some tasks only, the others are dropped
  (`Parallel.weights_wrong_size_fails`). Gather to a root other than 0 is wrong
  (`Gather.gather_nonzero_root_fails`). `allReduce` of one number writes into an
  `int` (`Collective.allReduceOne_fails`); broadcasts that do not send all sizes
  (`bcastComplex_fails`, `bcastNested_fails`, `bcastNested_long_fails`); products of
  complex numbers and maxima of unsigned ones (`reduceComplex_prod_fails`,
  `signed_max_fails`).
* CrsMatrix. The constructor from coordinates is wrong with rows that are empty
  (`Crs.ofCoo_fails`, `ofCoo_gap_fails`); `isTheIdentity` accepts matrices
  without stored diagonal (`isTheIdentity_fails`); `checkValidity` does not look
  at the first row pointer (`checkValidity_start_fails`); conversion into a
  matrix that is not empty keeps old elements (`crsMatrixToFullMatrix_fails`); an
  empty matrix cannot be read back (`print_read_empty_fails`).
* Vector. An expression that multiplies by an element of its own target is wrong
  (`Vec.alias_fails`), shorter operands are read out of range (`sizes_fails`), the
  product of a vector of vectors and a vector never ends (`matVec_fails`),
  `basenameOf` cuts at the wrong place (`basenameOf_fails`). Texts that end too
  early are read silently (`TextIo.vec_truncated_fails`, `mat_truncated_fails`);
  `printNonZero` is out of range with more rows than columns (`printNonZero_fails`).
* Matrix. `resize(n, m, val)` and `buildDenseMatrix` keep old elements
  (`Dense.resizeVal_stale_fails`, `Krylov.buildDense_stale_fails`);
  `multiplyTransposeConjugate` is for square matrices only.
* SparseVector. `operator==` compares a prefix (`eq_prefix_fails`), the norm of
  an unsorted vector is wrong, the scalar product asserts for empty ones,
  `isAlmostZero` is used and not defined anywhere.
* Geometry. A line of the input that only a later term has is given to an earlier term of the same kind
  (`optional_line_fails`); two sites at the end of one block of a superblock lose their connection
  (`same_block_fails`, `same_block_chain_fails`); sites at the ends count as connected when they are not
  (`connected_ends_fails`); connections between blocks are lost on a ladder with diagonals whose system is one site
  (`ladderx_one_site_fails`) and on KTwoNiFFour lattices (`ktwo_second_oxygen_fails`, `ktwo_third_oxygen_fails`). `maxConnections` is smaller than the number of connections a split breaks for open chains of
  longer range, ladders periodic along their rungs only, ladders with diagonals and ladders with baths
  (`chain_cut_fails`, `ladder_cut_fails`, `ladderx_cut_fails`, `bath_cut_fails`). Handles of periodic chains (`chain_periodic_fails`), of two periodic
  columns (`ladder_x_two_columns_fails`), of a bath with an odd cluster
  (`bath_odd_fails`), of three legs with diagonals
  (`ladderx_three_legs_fails`); fringes (`chain_fringe_periodic_fails`,
  `ladder_fringe_first_site_fails`, `ladder_fringe_four_legs_fails`,
  `fringe_last_fails`); splits (`split_odd_fails`, `split_unaligned_fails`);
  honeycomb bonds (`honeycomb_no_y_fails`, `honeycomb_periodic_fails`); complex
  connectors of one orbital are symmetric, not Hermitian
  (`connectors_complex_fails`).
* Strings. `atoi` accepts text that is not a number (`atoi_malformed_fails`);
  labels with brackets in the wrong order or trailing text are accepted, and one
  reads past the end (`Labels.site_reversed_fails`, `braket_malformed_fails`,
  `braket_overrun_fails`).
* Predicates. A name inside an operator or inside itself breaks the replacement
  (`name_inside_operator_fails`, `own_name_loops_fails`).
* Canonical expressions. Terms without an operator are dropped and an old result
  may be added (`number_term_dropped_fails`, `old_result_added_fails`).
* Random numbers. Ranks 0 and 1 share a stream (`ranks_0_1_same_fails`); the
  seeding is not the published one (`not_reference_fails`).
* MemResolv. An image from disk is not relocated (`load_stale_fails`); lengths
  are cut to 32 bits (`push_truncates_fails`).
* InputNg. Comments after values, kinds of the same label that interfere,
  comparison that throws (`comment_after_value_fails`, `kinds_interfere_fails`,
  `less_throws_fails` and others); sizes that are negative or large
  (`asSize_negative_fails`, `asSize_large_fails`); wrong keys of maps
  (`map_inside_fails`, `map_repeated_fails`, `map_malformed_fails`).
* Ainur. Assignments to names with an underscore inside declare another variable
  (`name_underscore_fails`), a missing last semicolon is undefined behaviour
  (`last_semicolon_fails`), stray characters are ignored (`stray_fails`,
  `first_fails`), comments get into values (`comment_in_value_fails`). A macro at the end of a value is lost (`macro_at_end_fails`); `...x0` is
  undefined (`ellipsis_zero_fails`); `AinurMacros.hh` tests `columnX_ >
  tokens.size()` where `>=` is meant, and `emptyLine` uses `||` where `&&` is
  meant.
* IoNg. Empty vectors are not kept (`empty_vector_fails`); an overwritten complex
  vector is lost (`overwrite_complex_fails`); a crash after a flush is not
  detected (`crash_after_flush_fails`), nor files opened in other ways
  (`rdwr_fails`, `excl_fails`); boolean vectors of more than 2^32 elements
  (`bools_long_fails`).
* IoSimple. The last of several instances is read wrongly
  (`IoSimple.readline_last_fails`, `vector_last_fails`,
  `vector_last_single_fails`), a vector at a level is not found
  (`vector_level_fails`), an empty vector eats what follows
  (`vector_empty_fails`), a value at the end of the file without end of line is
  not found (`readline_unterminated_fails`), and writing a number on a rank other
  than 0 follows a null pointer (`write_rank_fails`).
* LongRange. Indices of the compact form are not checked (`Geom.compact_site_fails`);
  matrices of the wrong size are accepted (`Geom.longrange_size_fails`).
* Complex numbers. Prefix expressions lose signs (`Cmplx.ast_minus`,
  `Cmplx.ast_fails`); Ainur loses the sign of `1-i2` and refuses `2i`
  (`Cmplx.ainur_fails`); canonical expressions refuse `-i` (`Cmplx.cor_fails`).
* GemmR. A matrix without rows divides by zero (`no_rows_fails`).
* Lanczos. One step only writes past the end (`one_step_fails`), as do many
  minimum steps (`min_steps_fails`). For the ground state no eigenvalue is compared,
  so that the tolerance has no effect (`ground_steps_fails`, `ground_energy_fails`);
  states out of range are read (`oneState_range_fails`, `allStates_spec`); the steps
  of a run limit later runs (`reuse_fails`); an eigenvector as start vector is
  refused (`breakdown_fails`).
* Chebyshev. `ChebyshevSolver::decomposition` follows a null pointer
  (`decomposition_fails`); the coefficients it would store are not the moments
  (`moments_fails`); fewer than six moments are read past the end
  (`plot_few_fails`).
* LinearPrediction. More coefficients than half the values read out of range
  (`ctor_many_fails`).
* ContinuedFraction. An interval shorter than the step writes past the end
  (`plot_short_fails`).
* Matrix and Svd. `diag` and `inverse` do not refuse a matrix with more columns
  than rows (`diag_wide_fails`, `inverse_wide_fails`); `inverse` of a matrix with
  more rows than columns reads out of range (`inverse_tall_fails`); complex `exp`
  and `expIpi` give the transposed result (`exp_complex_fails`, `expIpi_fails`);
  empty complex matrices are undefined behaviour (`diag_empty_fails`,
  `inverse_empty_fails`); `Svd` only prints a warning when LAPACK does not converge
  (`svd_info_fails`).
* TridiagonalMatrix. `diag` of a matrix of one row takes the address of an
  element out of range (`tri_diag_one_fails`); the vector of eigenvalues is longer
  than asked for (`tri_diag_stale_fails`).
* Others without a theorem: `DavidsonSolver.h` 138-157 (`t = t - tmp * t`).

## Wrong programs

Every entry of `seeded/LOG.jsonl` is a change of one definition of the model that a
mistake in the program could make, the claim that it breaks and the theorems that no
longer prove. Theorems that survived a change that falsified their claim were
tightened; the entry says which.
