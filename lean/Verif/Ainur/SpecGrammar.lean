import Verif.Ainur.ModelGrammar
import Verif.Ainur.Spec

/-!
# What an Ainur file looks like
-/

namespace Verif.Ainur

/-- The end of a line. -/
def IsEol (c : Char) : Prop := c = '\r' ∨ c = '\n'

/-- White space and complete comments. -/
inductive Gap : Str → Prop
  | nil : Gap []
  | space (c : Char) (g : Str) : white c = true → Gap g → Gap (c :: g)
  | comment (t : Str) (e : Char) (g : Str) : (∀ c ∈ t, ¬ IsEol c) → IsEol e → Gap g → Gap ('#' :: (t ++ e :: g))

/-- A letter. -/
def Letter (c : Char) : Prop := ('a' ≤ c ∧ c ≤ 'z') ∨ ('A' ≤ c ∧ c ≤ 'Z')

/-- A name: perhaps underscores, then letters, then letters, digits, colons and underscores. -/
def IsName (n : Str) : Prop :=
  ∃ u l r, n = u ++ l ++ r ∧ (∀ c ∈ u, c = '_') ∧ l ≠ [] ∧ (∀ c ∈ l, Letter c) ∧
    ∀ c ∈ r, Letter c ∨ ('0' ≤ c ∧ c ≤ '9') ∨ c = ':' ∨ c = '_'

/-- A type: letters, dots and exclamation marks. -/
def IsType (d : Str) : Prop := d ≠ [] ∧ ∀ c ∈ d, Letter c ∨ c = '.' ∨ c = '!'

/-- A value: not empty and without semicolons. -/
def IsValue (v : Str) : Prop := v ≠ [] ∧ ';' ∉ v

/-- The texts of a statement, without its semicolon. -/
inductive Layout : Stmt → Str → Prop
  | assign (g0 n g1 g2 v : Str) : Gap g0 → IsName n → Gap g1 → Gap g2 → IsValue v →
      Layout (.assign n v) (g0 ++ (n ++ (g1 ++ '=' :: (g2 ++ v))))
  | declare (g0 d g1 n g2 : Str) : Gap g0 → IsType d → Gap g1 → IsName n → (g1 ≠ [] ∨ n.head? = some '_') → Gap g2 →
      Layout (.declare d n) (g0 ++ (d ++ (g1 ++ (n ++ g2))))
  | define (g0 d g1 n g2 g3 v : Str) : Gap g0 → IsType d → Gap g1 → IsName n → (g1 ≠ [] ∨ n.head? = some '_') → Gap g2 →
      Gap g3 → IsValue v → Layout (.define d n v) (g0 ++ (d ++ (g1 ++ (n ++ (g2 ++ '=' :: (g3 ++ v))))))

/-- The name is letters, underscores, a letter and more. -/
def Splits (n a b : Str) : Prop :=
  ∃ u c r, n = a ++ b ∧ b = u ++ c :: r ∧ a ≠ [] ∧ (∀ x ∈ a, Letter x) ∧ u ≠ [] ∧ (∀ x ∈ u, x = '_') ∧ Letter c

/-- The value does not begin with white space or with a comment. -/
def Begins (v : Str) : Prop := ∀ c, v.head? = some c → white c = false ∧ c ≠ '#'

/-- Statements that can be read only in one way. -/
def Stmt.Clear : Stmt → Prop
  | .assign n v => (∀ a b, ¬ Splits n a b) ∧ Begins v
  | .declare _ _ => True
  | .define _ _ v => Begins v

/-- The text of a file: each statement is followed by a semicolon. -/
def fileText (l : List (Stmt × Str)) (tail : Str) : Str := l.flatMap (fun e => e.2 ++ [';']) ++ tail

/-- The characters allowed: white space and the printable ones but for the back quote. -/
def Allowed (c : Char) : Prop :=
  c = ' ' ∨ c = '\t' ∨ c = '\n' ∨ c = '\r' ∨ (33 ≤ c.toNat ∧ c.toNat ≤ 126 ∧ c ≠ '`')

/-- The call that a statement stands for; a variable declared without value has a value that cannot be read. -/
def Stmt.op : Stmt → Op
  | .assign n v => .assign n v
  | .declare d n => .declare d n ['\x00']
  | .define d n v => .declare d n v

end Verif.Ainur
