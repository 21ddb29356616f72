/-!
# Model of the expression evaluator, src/AST

Tokens are strings.  Values are of an abstract type; the arithmetic of the value type is a parameter
(`Ops`), since the code is a template.  A failed assertion is `none`.
-/

namespace Verif.Ast

/-- Operations of the value type used by the nodes. -/
structure Ops (V : Type) where
  add : V → V → V
  sub : V → V → V
  mul : V → V → V
  div : V → V → V
  /-- `std::norm(v) < 1e-6` -/
  tiny : V → Bool
  /-- `norm(v)` truncated to an integer -/
  toNat : V → Nat
  ofNat : Nat → V
  sin : V → V
  cos : V → V
  log : V → V
  exp : V → V
  /-- `setInputRealOrComplex`, src/AST/PlusMinusMultiplyDivide.h:113-127 (`none`: it throws) -/
  parse : String → Option V

/-- `arity()` of the node `findNodeFromCode` returns, src/AST/PlusMinusMultiplyDivide.h:43-109; the arities are
at src/AST/Node.h:80, 101, 122, 143, 219 and src/AST/AdditionalFunctions.h:34, 66, 85, 104, 123, 144. -/
def arity (code : String) : Nat :=
  if code = "+" ∨ code = "-" ∨ code = "*" ∨ code = "/" ∨ code = "%" then 2
  else if code = "sin" ∨ code = "cos" ∨ code = "log" ∨ code = "exp" then 1
  else if code = "?" then 3
  else 0

/-- `exec` of that node, src/AST/Node.h:81-151, 220-224 and src/AST/AdditionalFunctions.h:37-151; each
asserts the number of arguments.  An input node holds the value read from its own token. -/
def execNode {V : Type} (o : Ops V) (code : String) (v : List V) : Option V :=
  match code, v with
  | "+", [x, y] => some (o.add x y)
  | "-", [x, y] => some (o.sub x y)
  | "*", [x, y] => some (o.mul x y)
  | "/", [x, y] => some (if o.tiny y then x else o.div x y)
  | "%", [x, y] => some (o.ofNat (if o.toNat y = 0 then o.toNat x else o.toNat x % o.toNat y))
  | "sin", [x] => some (o.sin x)
  | "cos", [x] => some (o.cos x)
  | "log", [x] => some (o.log x)
  | "exp", [x] => some (o.exp x)
  | "?", [x, y, z] => some (if o.toNat x ≠ 0 then y else z)
  | c, [] => if arity c = 0 then o.parse c else none
  | _, _ => none

/-- First loop of the constructor, src/AST/ExpressionForAST.h:43-56: the tokens that get a tree.  `sumOfA`
starts at one and is never zero here, so the unsigned `sumOfA += a - 1` is written `sumOfA + a - 1`. -/
def load (sumOfA : Nat) : List String → List String
  | [] => []
  | t :: ts => if sumOfA + arity t - 1 = 0 then [t] else t :: load (sumOfA + arity t - 1) ts

/-- Second loop, src/AST/ExpressionForAST.h:58-70: the descendants of each tree, as positions; `n` is
`vecTree_.size()`, `k` the running position. -/
def link (n : Nat) (k : Nat) : List String → List (List Nat)
  | [] => []
  | t :: ts => ((List.range' (k + 1) (arity t)).filter (· < n)) :: link n (k + arity t) ts

/-- `Tree::exec`, src/AST/Tree.h:47-73, of the tree at position `i`; recursion deeper than `fuel` is `none`. -/
def exec {V : Type} (o : Ops V) (nodes : List String) (desc : List (List Nat)) : Nat → Nat → Option V
  | 0, _ => none
  | fuel + 1, i => do
    let code ← nodes[i]?
    let d ← desc[i]?
    let values ← d.mapM (exec o nodes desc fuel)
    execNode o code values

/-- `ExpressionForAST(vecStr, primitives).exec()`, src/AST/ExpressionForAST.h:36-88.  The recursion budget
is the number of trees (each tree has descendants at later positions only). -/
def run {V : Type} (o : Ops V) (vecStr : List String) : Option V :=
  let nodes := load 1 vecStr
  exec o nodes (link nodes.length 0 nodes) nodes.length 0

end Verif.Ast
