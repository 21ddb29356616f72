import Verif.Ainur.SpecGrammar
import Verif.Cmplx.Spec
import Verif.StrUtil.Spec

/-!
# What src/Ainur/testReal.cpp should print
-/

namespace Verif.Whole.Real

abbrev Text := List Char

/-- The text stands for a vector: its entries between brackets, or one entry and how often it is repeated; with white space anywhere, and
whatever follows the bracket. -/
inductive VectorText : Text → List ℚ → Prop
  | entries (t rest : Text) (ns : List Cmplx.Numeral) : ns ≠ [] → (∀ n ∈ ns, n.Ok) →
      Ainur.squeeze t = Ainur.vectorText (ns.map Cmplx.Numeral.text) ++ rest → VectorText t (ns.map Cmplx.Numeral.value)
  | times (t rest : Text) (n : Cmplx.Numeral) (k : Nat) : n.Ok → 0 < k → k ≤ 2147483647 →
      Ainur.squeeze t = Ainur.vectorText [n.text, "...x".toList ++ Nat.toDigits 10 k] ++ rest → VectorText t (List.replicate k n.value)

/-- The text stands for the matrix with these rows, all of the same length. -/
def MatrixText (t : Text) {r c : Nat} (A : Fin r → Fin c → Cmplx.Numeral) : Prop :=
  0 < r ∧ 0 < c ∧ (∀ i j, (A i j).Ok) ∧ ∃ rest, Ainur.squeeze t =
    Ainur.matrixText (List.ofFn fun i => List.ofFn fun j => (A i j).text) ++ rest

/-- The first line. -/
def sitesLine (n : Nat) : Text := "Read: TotalNumberOfSites=".toList ++ Nat.toDigits 10 n ++ ['\n']

/-- The vector: its length and its entries, one to a line. -/
def vectorLines (pr : ℚ → Text) (v : List ℚ) : Text := Nat.toDigits 10 v.length ++ ['\n'] ++ v.flatMap fun x => pr x ++ ['\n']

/-- The matrix: its dimensions and its rows, one to a line, with a blank after every number. -/
def matrixLines (pr : ℚ → Text) {r c : Nat} (A : Fin r → Fin c → ℚ) : Text :=
  Nat.toDigits 10 r ++ [' '] ++ Nat.toDigits 10 c ++ ['\n'] ++
    (List.ofFn fun i => (List.ofFn fun j => pr (A i j) ++ [' ']).flatten ++ ['\n']).flatten

end Verif.Whole.Real
