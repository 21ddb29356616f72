import Verif.Util.Out
import Verif.StrUtil.Model

/-!
# Model of the labels of operators and states, src/OneOperatorSpec.h and src/GetBraOrKet.h
-/

namespace Verif.Labels

open Verif.Str Verif.StrUtil

/-- `struct OneOperatorSpec`, src/OneOperatorSpec.h:107-109. -/
structure OneOperatorSpec where
  dof : Nat
  label : List Char
  transpose : Bool
  deriving DecidableEq, Repr

/-- `OneOperatorSpec::OneOperatorSpec`, src/OneOperatorSpec.h:10-44.  `label[lastIndex]` of the empty string is
the terminating null, which is no quote. -/
def OneOperatorSpec.ctor (label_ : List Char) : Out OneOperatorSpec := do
  let label := label_
  let lastIndex := label.length
  let lastIndex := if lastIndex > 0 then lastIndex - 1 else lastIndex
  let quoted := label[lastIndex]? = some '\''
  let label := if quoted then label.take lastIndex else label
  let transpose := decide quoted
  let label_ := label
  let i := label.findIdx (· == '?')
  if i = label.length then .ok ⟨0, label, transpose⟩
  else if i + 1 = label.length then throwOut
  else do
    let label ← ofThrow (substr label_ 0 i)
    let numericString ← ofThrow (substr label_ (i + 1) label_.length)
    if !isAnInteger numericString then throwOut
    else do
      let n ← ofNested (atoi numericString)
      .ok ⟨n.toNat, label, transpose⟩

/-- `struct SiteSplit`, src/OneOperatorSpec.h:46-58. -/
structure SiteSplit where
  hasSiteString : Bool
  root : List Char
  siteString : List Char
  deriving DecidableEq, Repr

/-- Position of the last occurrence, `none` for the initial -1: the loop of
src/OneOperatorSpec.h:66-76, for one of the two characters (positions are assumed to fit in an `int`). -/
def lastIndexOf (c : Char) : List Char → Nat → Option Nat → Option Nat
  | [], _, acc => acc
  | x :: xs, i, acc => lastIndexOf c xs (i + 1) (if x = c then some i else acc)

/-- `extractSiteIfAny`, src/OneOperatorSpec.h:60-90.  With `cBegin = cEnd` the first test wins in the code; here
the two characters are different.  A negative length in the last `substr` becomes a huge one. -/
def extractSiteIfAny (name : List Char) (cBegin cEnd : Char) : Out SiteSplit :=
  match lastIndexOf cBegin name 0 none, lastIndexOf cEnd name 0 none with
  | none, none => .ok ⟨false, name, []⟩
  | none, some _ => throwOut
  | some _, none => throwOut
  | some first, some last => do
    let s1 ← ofThrow (substr name 0 first)
    let s2 ← ofThrow (substr name (last + 1) (name.length - last))
    let site ← (if first + 1 ≤ last then ofThrow (substr name (first + 1) (last - first - 1))
      else ofThrow (substrFrom name (first + 1)))
    .ok ⟨true, s1 ++ s2, site⟩

/-- `enum class Kind`, src/GetBraOrKet.h:12-14. -/
inductive Kind | E | P | R
  deriving DecidableEq, Repr

/-- The members, src/GetBraOrKet.h:134-137. -/
structure BraOrKet where
  isKet : Bool
  text : List Char
  kind : Kind
  first : Nat
  second : Nat
  deriving DecidableEq, Repr

/-- `getNumberFrom`, src/GetBraOrKet.h:113-132, always called with `start = 1`: the number and what is left.  The
`RuntimeError` of line 123 is built but not thrown.  `::atoi` of a number out of range is undefined. -/
def getNumberFrom (str : List Char) (start : Nat) : Out (Nat × List Char) := do
  let number := (str.drop start).takeWhile isDigit
  let i := start + number.length
  let rest ← ofThrow (substr str i (str.length - i))
  match stdAtoi number with
  | none => ubOut
  | some n => .ok (n.toNat, rest)

/-- End of `getKind`, src/GetBraOrKet.h:102-110. -/
def getLevel (kind : Kind) (first : Nat) (str : List Char) : Out (Kind × Nat × Nat) :=
  if str.length < 2 then .ok (kind, first, 0)
  else if str.head? = some 'X' then do
    let r ← getNumberFrom str 1
    .ok (kind, first, r.1)
  else throwOut

/-- `getKind`, src/GetBraOrKet.h:75-111. -/
def getKind (str : List Char) : Out (Kind × Nat × Nat) :=
  if str.length < 2 then throwOut
  else if str.head? = some 'P' then do
    let r ← getNumberFrom str 1
    getLevel .P r.1 r.2
  else if str = "gs".toList then .ok (.E, 0, 0)
  else if str = "time".toList then .ok (.P, 0, 0)
  else if str.head? = some 'Q' then do
    let r ← getNumberFrom str 1
    getLevel .E r.1 r.2
  else if str.head? = some 'R' then do
    let r ← getNumberFrom str 1
    .ok (.R, r.1, 0)
  else getLevel .E 0 str

/-- `GetBraOrKet::GetBraOrKet`, src/GetBraOrKet.h:18-36.  The second test reads `braOrKet_[last]` of the string
as it is then: past the end of it (beyond the terminating null) if the first test has shortened it and the
string left starts with `<`. -/
def BraOrKet.ctor (s : List Char) : Out BraOrKet := do
  let l := s.length
  if l < 2 then throwOut
  else do
    let last := l - 1
    let t := if s.head? = some '|' ∧ s[last]? = some '>' ∧ l > 2 then (s.drop 1).take (l - 2) else s
    if t.head? = some '<' ∧ t.length < last then ubOut
    else do
      let bra := decide (t.head? = some '<' ∧ t[last]? = some '|' ∧ l > 2)
      let t := if bra then (s.drop 1).take (l - 2) else t
      let k ← getKind t
      .ok ⟨!bra, t, k.1, k.2.1, k.2.2⟩

/-- `isPvector`, src/GetBraOrKet.h:42. -/
def BraOrKet.isPvector (b : BraOrKet) : Bool := b.kind == .P

/-- `isRvector`, src/GetBraOrKet.h:44. -/
def BraOrKet.isRvector (b : BraOrKet) : Bool := b.kind == .R

/-- `levelIndex`, src/GetBraOrKet.h:46-50, with `checkIfPvector`, lines 66-73. -/
def BraOrKet.levelIndex (b : BraOrKet) : Out Nat := if b.kind = .P ∨ b.kind = .R then throwOut else .ok b.second

/-- `sectorIndex`, src/GetBraOrKet.h:52-56. -/
def BraOrKet.sectorIndex (b : BraOrKet) : Out Nat := if b.kind = .P ∨ b.kind = .R then throwOut else .ok b.first

/-- `pIndex`, src/GetBraOrKet.h:58-62. -/
def BraOrKet.pIndex (b : BraOrKet) : Out Nat := if b.kind = .P ∨ b.kind = .R then .ok b.first else throwOut

end Verif.Labels
