import Verif.GemmR.Model
import Verif.Whole.ModelRange
import Mathlib.Analysis.RCLike.Basic
import Mathlib.Analysis.Complex.Basic

/-!
# A whole program: examples/testGemmR.cpp

Products of matrices of many sizes, computed in tiles by threads and by one call of BLAS, are compared.  Numbers are exact; `fd` is
how the stream writes a `double`.
-/

namespace Verif.Whole.Gemm

open Verif.GemmR Verif.Concurrency Verif.Whole.Range

variable {𝕜 : Type} [RCLike 𝕜]

/-- The values of `for (int i = 1; i <= max; i += nb)`, examples/testGemmR.cpp:37-39, from `i` on: `none` if the loop is not over after
`fuel` turns; a variable that is too large for an `int` is undefined behaviour. -/
def upTo (max nb : Nat) : Nat → Nat → Option (Out (List Nat))
  | 0, _ => none
  | fuel + 1, i =>
    if i ≤ max then
      if i + nb < 2 ^ 31 then (upTo max nb fuel (i + nb)).map fun r => r.map (i :: ·) else some ubOut
    else some (.ok [])

/-- One product. -/
structure Case where
  k : Nat
  n : Nat
  m : Nat
  transB : Char
  transA : Char

/-- `trans_table`, examples/testGemmR.cpp:29. -/
def transTable : List Char := ['N', 'T', 'C']

/-- The five loops, examples/testGemmR.cpp:37-44, with the constants of examples/testGemmR.cpp:128-130. -/
def cases (fuel nb : Nat) : Option (Out (List Case)) := do
  let ks ← upTo 302 nb fuel 1
  let ns ← upTo 300 nb fuel 1
  let ms ← upTo 301 nb fuel 1
  return do
    let ks ← ks
    let ns ← ns
    let ms ← ms
    return ks.flatMap fun k => ns.flatMap fun n => ms.flatMap fun m => transTable.flatMap fun b => transTable.map fun a => ⟨k, n, m, b, a⟩

/-- A matrix filled by columns, such as examples/testGemmR.cpp:69-76.  Simplified: what the loops leave in memory. -/
def fill (r s : Nat) (f : Nat → Nat → 𝕜) : List 𝕜 := (List.range (r * s)).map fun p => f (p % r) (p / r)

/-- `is_notransA` and `is_notransB`, examples/testGemmR.cpp:46-51. -/
def noTrans (c : Char) : Bool := !isTrans c && !isConj c

/-- `cij`, examples/testGemmR.cpp:71-72; `val` is `make_val`, examples/testGemmR.cpp:7-21. -/
noncomputable def cVal (val : ℝ → ℝ → 𝕜) (c : Case) (i j : Nat) : 𝕜 :=
  val (((i : ℝ) + j) / ((c.m : ℝ) + c.n)) ((i : ℝ) * j / ((c.m : ℝ) * c.n))

/-- `aij`, examples/testGemmR.cpp:80. -/
noncomputable def aVal (val : ℝ → ℝ → 𝕜) (i j : Nat) : 𝕜 := val (-((i : ℝ) + j + 1)) ((j : ℝ) - i + 1)

/-- `bij`, examples/testGemmR.cpp:87-88. -/
noncomputable def bVal (val : ℝ → ℝ → 𝕜) (mB nB i j : Nat) : 𝕜 :=
  val (((i : ℝ) + j + 1) / ((mB : ℝ) * nB)) (-((j : ℝ) - i + 1) / ((mB : ℝ) * nB))

/-- The arguments of both products, examples/testGemmR.cpp:31-32, 53-67, 78-91 and 93-95. -/
noncomputable def argsOf (val : ℝ → ℝ → 𝕜) (c : Case) : Args 𝕜 :=
  let mA := if noTrans c.transA then c.m else c.k
  let nA := if noTrans c.transA then c.k else c.m
  let mB := if noTrans c.transB then c.k else c.n
  let nB := if noTrans c.transB then c.n else c.k
  ⟨c.transA, c.transB, c.m, c.n, c.k, val (11 / 10) (21 / 10), fill mA nA (aVal val), mA, fill mB nB (bVal val mB nB), mB,
    val (31 / 10) (41 / 10), c.m⟩

/-- `psimag::BLAS::GEMM`, examples/testGemmR.cpp:95. -/
def gemm (g : Args 𝕜) (C : List 𝕜) : Out (List 𝕜) := do
  let l ← blasSteps g g.m g.n 0 0 0
  runSteps g C l

/-- `max_err`, examples/testGemmR.cpp:97 and 101-102. -/
noncomputable def maxErr (C C' : List 𝕜) : ℝ := (C.zip C').foldl (fun e x => max e ‖x.1 - x.2‖) 0

/-- `c_norm`, examples/testGemmR.cpp:98 and 103. -/
noncomputable def cNorm (C : List 𝕜) : ℝ := C.foldl (fun s x => s + ‖x‖) 0

/-- One product with both methods, examples/testGemmR.cpp:69-76 and 93-105, by `threads` threads: `max_err` and `c_norm`.  A loop over
tiles with no threads divides by zero, src/GemmR.h:109-113. -/
inductive Trial (val : ℝ → ℝ → 𝕜) (nb threads : Nat) (c : Case) : Out (ℝ × ℝ) → Prop
  | done (r : Out (List 𝕜)) : (threads ≠ 0 ∨ isSmall nb c.m c.n = true) → GemmR.Run (argsOf val c) nb (fill c.m c.n (cVal val c)) r →
      Trial val nb threads c (do
        let C' ← r
        let C ← gemm (argsOf val c) (fill c.m c.n (cVal val c))
        return (maxErr C C', cNorm C))
  | noThreads : threads = 0 → isSmall nb c.m c.n = false → Trial val nb threads c ubOut

/-- What `GemmR` prints of products in tiles, src/GemmR.h:63-70. -/
def tileText (nb : Nat) (c : Case) : Out (List Char) := do
  let nbI ← blockSize c.m (nblocks nb c.m)
  let nbJ ← blockSize c.n (nblocks nb c.n)
  return " GEMMR: ".toList ++ " m ".toList ++ digits c.m ++ " n ".toList ++ digits c.n ++ " k ".toList ++ digits c.k ++ " nb ".toList ++
    digits nb ++ " nb_i ".toList ++ digits nbI ++ " nb_j ".toList ++ digits nbJ ++ " nblocks_i ".toList ++ digits (nblocks nb c.m) ++
    " nblocks_j ".toList ++ digits (nblocks nb c.n) ++ "\n".toList

/-- The line of a product, examples/testGemmR.cpp:113-115. -/
def line (fd : ℝ → List Char) (c : Case) (x : ℝ × ℝ) : List Char :=
  " transA ".toList ++ [c.transA] ++ " transB ".toList ++ [c.transB] ++ " m ".toList ++ digits c.m ++ " n ".toList ++ digits c.n ++
    " k ".toList ++ digits c.k ++ " max_err ".toList ++ fd x.1 ++ " c_norm ".toList ++ fd x.2 ++ "\n".toList

open Classical in
/-- What is counted and printed for a product, examples/testGemmR.cpp:107-116 with src/GemmR.h:63-70. -/
noncomputable def report (fd : ℝ → List Char) (debug : Bool) (nb : Nat) (c : Case) (x : ℝ × ℝ) : Out (Nat × List Char) := do
  let isok : Bool := decide (x.1 < 1 / 10000000)
  let t ← if debug && !isSmall nb c.m c.n then tileText nb c else .ok []
  return (if isok then 0 else 1, t ++ if !isok || debug then line fd c x else [])

/-- `test_GEMMR`, examples/testGemmR.cpp:23-124: the number of errors and what is printed. -/
inductive Tests (val : ℝ → ℝ → 𝕜) (fd : ℝ → List Char) (debug : Bool) (nb threads : Nat) : List Case → Out (Nat × List Char) → Prop
  | nil : Tests val fd debug nb threads [] (.ok (0, []))
  | cons (c : Case) (l : List Case) (r : Out (ℝ × ℝ)) (r' : Out (Nat × List Char)) : Trial val nb threads c r →
      Tests val fd debug nb threads l r' →
      Tests val fd debug nb threads (c :: l) (do
        let x ← r
        let y ← report fd debug nb c x
        let z ← r'
        return (y.1 + z.1, y.2 ++ z.2))

/-- `atoi(argv[3]) > 0`, examples/testGemmR.cpp:139. -/
def flag (s : List Char) : Out Bool :=
  match Host.atoi s with
  | some i => .ok (decide (0 < i))
  | none => ubOut

/-- The arguments after the name of the program, examples/testGemmR.cpp:133-139: number of threads, `nb`, and whether to print.
Simplified: a negative `nb` is taken for a large one, and so is undefined behaviour in `upTo`; in the code it leads to matrices with
no rows or with more rows than memory. -/
def settings (args : List (List Char)) : Out (Nat × Nat × Bool) :=
  match args with
  | [] => throwOut
  | [t] => do
    let t ← number t
    return (t, 99, false)
  | [t, nb] => do
    let t ← number t
    let nb ← number nb
    return (t, nb, false)
  | [t, nb, d] => do
    let t ← number t
    let nb ← number nb
    let d ← flag d
    return (t, nb, d)
  | t :: nb :: _ => do
    let t ← number t
    let nb ← number nb
    return (t, nb, false)

/-- `main`, examples/testGemmR.cpp:126-157, after the arguments were read: what is printed in the end. -/
inductive Main (fd : ℝ → List Char) (debug : Bool) (nb threads : Nat) (l : List Case) : Out (List Char) → Prop
  | passed (t t' : List Char) : Tests (fun x _ => (x : ℝ)) fd debug nb threads l (.ok (0, t)) →
      Tests (fun x y => (⟨x, y⟩ : ℂ)) fd debug nb threads l (.ok (0, t')) →
      Main fd debug nb threads l (.ok (t ++ t' ++ "ALL PASSED ".toList ++ "\n".toList))
  | failed (n : Nat) (t t' : List Char) : Tests (fun x _ => (x : ℝ)) fd debug nb threads l (.ok (0, t)) →
      Tests (fun x y => (⟨x, y⟩ : ℂ)) fd debug nb threads l (.ok (n + 1, t')) →
      Main fd debug nb threads l (.ok (t ++ t' ++ " nerr_double = 0 nerr_zcomplex = ".toList ++ digits (n + 1) ++ "\n".toList))
  | failedReal (n : Nat) (t : List Char) : Tests (fun x _ => (x : ℝ)) fd debug nb threads l (.ok (n + 1, t)) →
      Main fd debug nb threads l (.ok (t ++ " nerr_double = ".toList ++ digits (n + 1) ++ " nerr_zcomplex = 0\n".toList))
  | badReal (e : Bad) : Tests (fun x _ => (x : ℝ)) fd debug nb threads l (.error e) → Main fd debug nb threads l (.error e)
  | bad (t : List Char) (e : Bad) : Tests (fun x _ => (x : ℝ)) fd debug nb threads l (.ok (0, t)) →
      Tests (fun x y => (⟨x, y⟩ : ℂ)) fd debug nb threads l (.error e) → Main fd debug nb threads l (.error e)

/-- The program with a budget of `fuel` turns of its loops, examples/testGemmR.cpp:126-157; it does not end with `r` if the budget is
too small. -/
inductive Ends (fd : ℝ → List Char) (b : Build) (args : List (List Char)) (fuel : Nat) : Out (List Char) → Prop
  | refused (e : Bad) : settings args = .error e → Ends fd b args fuel (.error e)
  | concurrency (t nb : Nat) (d : Bool) (e : Bad) : settings args = .ok (t, nb, d) → ofRes (construct b t) = .error e →
      Ends fd b args fuel (.error e)
  | overflow (t nb : Nat) (d : Bool) (conf : Conf) (e : Bad) : settings args = .ok (t, nb, d) → construct b t = .ok conf →
      cases fuel nb = some (.error e) → Ends fd b args fuel (.error e)
  | main (t nb : Nat) (d : Bool) (conf : Conf) (l : List Case) (r : Out (List Char)) : settings args = .ok (t, nb, d) →
      construct b t = .ok conf → cases fuel nb = some (.ok l) → Main fd d nb conf.npthreads l r → Ends fd b args fuel r

end Verif.Whole.Gemm
