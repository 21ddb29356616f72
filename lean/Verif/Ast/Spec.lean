import Verif.Ast.Model

/-!
# Expression trees, their value, and their listing level by level
-/

namespace Verif.Ast

/-- An operator or number with its arguments. -/
inductive Expr where
  | node (code : String) (args : List Expr)

/-- Number of arguments a symbol takes; anything that is not an operator is a number. -/
def operands : String → Nat
  | "+" => 2 | "-" => 2 | "*" => 2 | "/" => 2 | "%" => 2
  | "sin" => 1 | "cos" => 1 | "log" => 1 | "exp" => 1
  | "?" => 3
  | _ => 0

/-- What each symbol computes from its arguments.  Division by something very small leaves the dividend, the
remainder by zero leaves the dividend, `?` chooses. -/
inductive Apply {V : Type} (o : Ops V) : String → List V → V → Prop
  | number (c : String) (v : V) : operands c = 0 → o.parse c = some v → Apply o c [] v
  | add (x y : V) : Apply o "+" [x, y] (o.add x y)
  | sub (x y : V) : Apply o "-" [x, y] (o.sub x y)
  | mul (x y : V) : Apply o "*" [x, y] (o.mul x y)
  | div (x y : V) : o.tiny y = false → Apply o "/" [x, y] (o.div x y)
  | divTiny (x y : V) : o.tiny y = true → Apply o "/" [x, y] x
  | mod (x y : V) : o.toNat y ≠ 0 → Apply o "%" [x, y] (o.ofNat (o.toNat x % o.toNat y))
  | modZero (x y : V) : o.toNat y = 0 → Apply o "%" [x, y] (o.ofNat (o.toNat x))
  | sin (x : V) : Apply o "sin" [x] (o.sin x)
  | cos (x : V) : Apply o "cos" [x] (o.cos x)
  | log (x : V) : Apply o "log" [x] (o.log x)
  | exp (x : V) : Apply o "exp" [x] (o.exp x)
  | first (x y z : V) : o.toNat x ≠ 0 → Apply o "?" [x, y, z] y
  | second (x y z : V) : o.toNat x = 0 → Apply o "?" [x, y, z] z

namespace Expr

def code : Expr → String | node c _ => c
def args : Expr → List Expr | node _ a => a

/-- Every operator has the right number of arguments. -/
inductive WF : Expr → Prop
  | mk (c : String) (as : List Expr) : as.length = operands c → (∀ a ∈ as, WF a) → WF (node c as)

/-- Value: arguments first, left to right, then the operator. -/
inductive Value {V : Type} (o : Ops V) : Expr → V → Prop
  | mk (c : String) (as : List Expr) (vs : List V) (v : V) : as.length = vs.length →
      (∀ i (h : i < as.length) (h' : i < vs.length), Value o as[i] vs[i]) → Apply o c vs v →
      Value o (node c as) v

/-- Number of nodes. -/
def size : Expr → Nat
  | node _ as => 1 + (as.attach.map fun a => size a.1).sum
  decreasing_by
    have := a.2
    have := List.sizeOf_lt_of_mem this
    simp only [node.sizeOf_spec]; omega

/-- The arguments of all trees of a list, one level down. -/
def nextLevel (ts : List Expr) : List Expr := ts.flatMap args

/-- Tokens of the first `n` levels: the roots from left to right, then their arguments, and so on. -/
def levels : Nat → List Expr → List String
  | 0, _ => []
  | n + 1, ts => ts.map code ++ levels n (nextLevel ts)

end Expr

end Verif.Ast
