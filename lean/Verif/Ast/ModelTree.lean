import Verif.Ast.Model
import Verif.Util.Out

/-!
# Model of trees built by hand and of their inputs, src/AST/Tree.h and src/AST/Node.h

Nodes are objects; trees hold references to them, so two trees, or two places of a tree, can share a node.  Of a node that is an
`Input` the model keeps its number and which object it is; the values the objects hold are the state.
-/

namespace Verif.Ast

/-- A node: an operator with its code, or `Input(num)`, the object number `id`. -/
inductive Nd where
  | op (code : String)
  | input (num id : Nat)

/-- `Tree`, src/AST/Tree.h:38-43, 116-121: a node and its descendants. -/
inductive Tree where
  | node (n : Nd) (ds : List Tree)

/-- The values of the inputs; an input that was not set has no value. -/
abbrev Inputs (V : Type) := Nat → Option V

/-- The character that is the code of `Input(i)`, src/AST/Node.h:207-212: `i + 48` in one byte, which is signed. -/
def inputChar (i : Nat) : Int := (BitVec.ofNat 8 (i + 48)).toInt

/-- `exec` of a node, src/AST/Node.h:81-151, 221-225.  An input that was not set is read all the same, here `none`. -/
def Nd.exec {V : Type} (o : Ops V) (s : Inputs V) (vs : List V) : Nd → Option V
  | .op c => if arity c = 0 then none else execNode o c vs
  | .input _ id => if vs = [] then s id else none

mutual
/-- `Tree::exec`, src/AST/Tree.h:47-73. -/
def Tree.exec {V : Type} (o : Ops V) (s : Inputs V) : Tree → Option V
  | .node n ds => (execAll o s ds).bind fun vs => n.exec o s vs
/-- The loop over the descendants, src/AST/Tree.h:51-55. -/
def execAll {V : Type} (o : Ops V) (s : Inputs V) : List Tree → Option (List V)
  | [] => some []
  | d :: ds => (d.exec o s).bind fun v => (execAll o s ds).map (v :: ·)
end

/-- The end of `Tree::set`, src/AST/Tree.h:80-90, for the node: `node_.set` throws for nodes that are not inputs
(src/AST/Node.h:50-53); the index is not checked but by an assertion. -/
def Nd.set {V : Type} (values : List V) (s : Inputs V) : Nd → Out (Inputs V)
  | .op c =>
    match c.toList with
    | [] => throwOut
    | [ch] => if ch.toNat < 48 ∨ 57 < ch.toNat then .ok s else if ch.toNat - 48 < values.length then throwOut else ubOut
    | _ => .ok s
  | .input i id =>
    if inputChar i < 48 ∨ 57 < inputChar i then .ok s
    else
      match values[(inputChar i - 48).toNat]? with
      | none => ubOut
      | some v => .ok fun k => if k = id then some v else s k

mutual
/-- `Tree::set`, src/AST/Tree.h:75-91. -/
def Tree.set {V : Type} (values : List V) (s : Inputs V) : Tree → Out (Inputs V)
  | .node n ds => (setAll values s ds).bind fun s => n.set values s
/-- The loop over the descendants, src/AST/Tree.h:77-78. -/
def setAll {V : Type} (values : List V) (s : Inputs V) : List Tree → Out (Inputs V)
  | [] => .ok s
  | d :: ds => (d.set values s).bind fun s => setAll values s ds
end

/-- `Tree::isLinearTree`, src/AST/Tree.h:94-103. -/
def Tree.isLinear : Tree → Bool
  | .node _ [] => true
  | .node _ [d] => d.isLinear
  | .node _ (_ :: _ :: _) => false

end Verif.Ast
