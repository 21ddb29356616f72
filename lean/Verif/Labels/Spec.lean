import Verif.Labels.Model

/-!
# How labels are written
-/

namespace Verif.Labels

/-- A trailing quote marks the transpose. -/
def quote (tr : Bool) : List Char := if tr then ['\''] else []

/-- `?` and the degree of freedom in decimal, if given. -/
def dofText : Option Nat → List Char
  | none => []
  | some d => '?' :: Nat.toDigits 10 d

/-- Labels of states. -/
inductive StateLabel
  /-- ground state -/
  | gs
  /-- legacy name of the first P vector -/
  | time
  /-- P vector -/
  | p (n : Nat)
  /-- reserved vector -/
  | r (n : Nat)
  /-- excited level of the first sector -/
  | x (level : Nat)
  /-- ground state of a sector -/
  | q (sector : Nat)
  /-- excited level of a sector -/
  | qx (sector level : Nat)

def StateLabel.text : StateLabel → List Char
  | gs => "gs".toList
  | time => "time".toList
  | p n => 'P' :: Nat.toDigits 10 n
  | r n => 'R' :: Nat.toDigits 10 n
  | x l => 'X' :: Nat.toDigits 10 l
  | q s => 'Q' :: Nat.toDigits 10 s
  | qx s l => 'Q' :: (Nat.toDigits 10 s ++ 'X' :: Nat.toDigits 10 l)

/-- Kind, first and second number of a label. -/
def StateLabel.meaning : StateLabel → Kind × Nat × Nat
  | gs => (.E, 0, 0)
  | time => (.P, 0, 0)
  | p n => (.P, n, 0)
  | r n => (.R, n, 0)
  | x l => (.E, 0, l)
  | q s => (.E, s, 0)
  | qx s l => (.E, s, l)

/-- The numbers of a label fit in an `int`. -/
def StateLabel.fits : StateLabel → Prop
  | gs => True
  | time => True
  | p n => n ≤ 2147483647
  | r n => n ≤ 2147483647
  | x l => l ≤ 2147483647
  | q s => s ≤ 2147483647
  | qx s l => s ≤ 2147483647 ∧ l ≤ 2147483647

/-- The three ways to write a state: bare, as a ket, as a bra. -/
inductive Wrap | bare | ket | bra

def Wrap.text (s : List Char) : Wrap → List Char
  | bare => s
  | ket => '|' :: s ++ ['>']
  | bra => '<' :: s ++ ['|']

end Verif.Labels
