import Verif.Geom.ModelInput
import Verif.Dense.Lemmas
import Verif.InputNg.Spec
import Verif.StrUtil.Spec

/-!
# What the lines of a geometry in an input file mean

Nothing here depends on how the file is read.
-/

namespace Verif.Geom

open Verif.Dense Verif.InputNg Verif.StrUtil

/-- The kinds of geometry covered, with the lines of their own. -/
inductive KindSpec
  /-- `GeometryKind=chain`, and `IsPeriodicX=` and `LongChainDistance=` if they are given -/
  | chain (px : Option Int) (distance : Option Nat)
  /-- `GeometryKind=ladder`, `LadderLeg=`, and `IsPeriodicX=` and `IsPeriodicY=` if they are given -/
  | ladder (leg : Nat) (px py : Option Int)
  /-- `GeometryKind=star` -/
  | star
  /-- `GeometryKind=ktwoniffour` and `SignChange=` -/
  | ktwo (sc : Int)
  /-- `GeometryKind=ladderx` with the lines of a ladder -/
  | ladderx (leg : Nat) (px py : Option Int)
  /-- `GeometryKind=ladderbath`, `BathSitesPerSite=` and the lines of a ladder -/
  | bath (sites leg : Nat) (px py : Option Int)
  /-- `GeometryKind=Honeycomb`, `HoneycombLy=`, `IsPeriodicY=`, and `IsPeriodicX=` if it is given -/
  | honeycomb (ly : Nat) (py : Int) (px : Option Int)

/-- One term: `DegreesOfFreedom=` if it is given, the kind, `GeometryOptions=`, and for each direction its lists with the label
`Connectors`, as they stand in the file. -/
structure TermSpec where
  dof : Option Nat
  kind : KindSpec
  options : Str
  connectors : List (List (List Str))

/-- The labels of texts in a geometry. -/
def geoLabels : List Str := ["TotalNumberOfSites".toList, "NumberOfTerms".toList, "DegreesOfFreedom".toList, "GeometryKind".toList,
  "GeometryOptions".toList, "IsPeriodicX".toList, "IsPeriodicY".toList, "LongChainDistance".toList, "LadderLeg".toList,
  "SignChange".toList, "BathSitesPerSite".toList, "HoneycombLy".toList, "GeometryValueModifier".toList]

/-- A line that is given or not. -/
def line? {β : Type} (label : Str) (text : β → Str) : Option β → List (Str × Str)
  | some x => [(label, text x)]
  | none => []

/-- The name of the kind. -/
def KindSpec.name : KindSpec → Str
  | .chain _ _ => "chain".toList
  | .ladder _ _ _ => "ladder".toList
  | .star => "star".toList
  | .ktwo _ => "ktwoniffour".toList
  | .ladderx _ _ _ => "ladderx".toList
  | .bath _ _ _ _ => "ladderbath".toList
  | .honeycomb _ _ _ => "Honeycomb".toList

/-- The lines of a ladder. -/
def ladderTexts (leg : Nat) (px py : Option Int) : List (Str × Str) := ("LadderLeg".toList, Nat.toDigits 10 leg) ::
  (line? "IsPeriodicX".toList decimal px ++ line? "IsPeriodicY".toList decimal py)

/-- The lines of the kind. -/
def KindSpec.texts : KindSpec → List (Str × Str)
  | .chain px d => line? "IsPeriodicX".toList decimal px ++ line? "LongChainDistance".toList (Nat.toDigits 10) d
  | .ladder leg px py => ladderTexts leg px py
  | .star => []
  | .ktwo sc => [("SignChange".toList, decimal sc)]
  | .ladderx leg px py => ladderTexts leg px py
  | .bath n leg px py => ("BathSitesPerSite".toList, Nat.toDigits 10 n) :: ladderTexts leg px py
  | .honeycomb ly py px => ("HoneycombLy".toList, Nat.toDigits 10 ly) :: ("IsPeriodicY".toList, decimal py) ::
      line? "IsPeriodicX".toList decimal px

/-- The lines of a term. -/
def TermSpec.texts (t : TermSpec) : List (Str × Str) :=
  line? "DegreesOfFreedom".toList (Nat.toDigits 10) t.dof ++
    ("GeometryKind".toList, t.kind.name) :: ("GeometryOptions".toList, t.options) :: t.kind.texts

/-- The lines that a ladder may have and that are not given. -/
def ladderAbsent (px py : Option Int) : List Str :=
  (if px = none then ["IsPeriodicX".toList] else []) ++ (if py = none then ["IsPeriodicY".toList] else [])

/-- The lines that the kind may have and that are not given. -/
def KindSpec.absent : KindSpec → List Str
  | .chain px d => (if px = none then ["IsPeriodicX".toList] else []) ++ (if d = none then ["LongChainDistance".toList] else [])
  | .ladder _ px py => ladderAbsent px py
  | .star => []
  | .ktwo _ => []
  | .ladderx _ px py => ladderAbsent px py
  | .bath _ _ px py => ladderAbsent px py
  | .honeycomb _ _ px => if px = none then ["IsPeriodicX".toList] else []

/-- The lines that the term may have and that are not given. -/
def TermSpec.absent (t : TermSpec) : List Str :=
  (if t.dof = none then ["DegreesOfFreedom".toList] else []) ++ t.kind.absent

/-- The lines of a geometry in a file, in any order between labels, with anything else in between: each term has its own lines, and
no term leaves out a line that another one has. -/
structure GeoFile (ls : List Line) (N : Nat) (specs : List TermSpec) : Prop where
  lines : ∀ l ∈ geoLabels, occ (InputNg.texts ls) l = occ (("TotalNumberOfSites".toList, Nat.toDigits 10 N) ::
    ("NumberOfTerms".toList, Nat.toDigits 10 specs.length) :: specs.flatMap TermSpec.texts) l
  lists : occ (vecs ls) "Connectors".toList = specs.flatMap fun t => t.connectors.flatten
  absent : ∀ t ∈ specs, ∀ l ∈ t.absent, occ (InputNg.texts ls) l = []
  modifier : occ (InputNg.texts ls) "GeometryValueModifier".toList = []

/-- Number of orbitals of a term. -/
def TermSpec.orbitals (t : TermSpec) : Nat := t.dof.getD 1

/-- Whether the values of a term are the same for all bonds of a direction. -/
def TermSpec.const (t : TermSpec) : Bool := decide ("ConstantValues".toList <:+: t.options)

/-- Whether a flag is given and positive. -/
def on (x : Option Int) : Bool := match x with | some x => decide (0 < x) | none => false

/-- The ladder that lines describe; with two legs it is not periodic along the rungs. -/
def ladderOf (N leg : Nat) (px py : Option Int) : Ladder := ⟨N, leg, on px, if leg = 2 then false else on py⟩

/-- The geometry of a term. -/
def KindSpec.base (N : Nat) : KindSpec → Base
  | .chain px d => chainBase ⟨N, on px, d.getD 1⟩
  | .ladder leg px py => ladderBase (ladderOf N leg px py)
  | .star => starBase N
  | .ktwo sc => ktwoBase N sc
  | .ladderx leg px py => ladderxBase ⟨ladderOf N leg px py⟩
  | .bath n leg px py => bathBase ⟨N, n, N / (1 + n), ladderOf (N / (1 + n)) leg px py⟩
  | .honeycomb ly py px => honeyBase ⟨N, ly, decide (0 < py), on px⟩

/-- Of a ladder: numbers fit in an `int`, the legs divide the sites, and `IsPeriodicY=` is given for ladders other than with two
legs. -/
def LadderOk (N leg : Nat) (px py : Option Int) : Prop :=
  (∀ x ∈ px, -2147483648 ≤ x ∧ x ≤ 2147483647) ∧ (∀ x ∈ py, -2147483648 ≤ x ∧ x ≤ 2147483647) ∧
    0 < leg ∧ leg < 2 ^ 31 ∧ leg ∣ N ∧ (leg ≠ 2 → py ≠ none)

/-- Numbers fit in an `int`, and ladders are well formed. -/
def KindSpec.Ok (N : Nat) : KindSpec → Prop
  | .chain px d => (∀ x ∈ px, -2147483648 ≤ x ∧ x ≤ 2147483647) ∧ ∀ x ∈ d, x < 2 ^ 31
  | .ladder leg px py => LadderOk N leg px py
  | .star => True
  | .ktwo sc => -2147483648 ≤ sc ∧ sc ≤ 2147483647
  | .ladderx leg px py => LadderOk N leg px py
  | .bath n leg px py => n < 2 ^ 31 ∧ LadderOk (N / (1 + n)) leg px py
  | .honeycomb ly py px => ly < 2 ^ 31 ∧ (-2147483648 ≤ py ∧ py ≤ 2147483647) ∧ ∀ x ∈ px, -2147483648 ≤ x ∧ x ≤ 2147483647

/-- How many lists or numbers a direction needs. -/
def TermSpec.size (N : Nat) (t : TermSpec) (d : Nat) : Option Nat := if t.const then some 1 else (t.kind.base N).getVectorSize d

/-- The term is complete: with one orbital one list for each direction, with its count and as many numbers as bonds (or one); with
more orbitals as many square matrices. `num` and `mat` read numbers and matrices, with these values. -/
structure TermSpec.Ok {α : Type} (num : Str → Out α) (value : Str → α) (mat : List Str → Out (Mat α)) (matrix : List Str → Mat α)
    (N : Nat) (t : TermSpec) : Prop where
  kind : t.kind.Ok N
  dof : 0 < t.orbitals ∧ t.orbitals < 2 ^ 31
  dirs : t.connectors.length = (t.kind.base N).dirs
  numbers : t.orbitals = 1 → ∀ d c, t.connectors[d]? = some c → ∃ n xs, c = [n :: xs] ∧ t.size N d = some xs.length ∧
    ∀ x ∈ xs, num x = .ok (value x)
  matrices : t.orbitals ≠ 1 → ∀ d c, t.connectors[d]? = some c → ∃ n, t.size N d = some n ∧ c.length = max n 1 ∧
    ∀ s ∈ c, mat s = .ok (matrix s) ∧ Shape (matrix s) t.orbitals t.orbitals

/-- The text of the number of a bond, for a term with one orbital: the list of the direction of the bond, after its count, at the
position of the bond, or at the start if the values are constant. -/
def TermSpec.number (N : Nat) (t : TermSpec) (i j : Nat) : Option Str := do
  let d ← (t.kind.base N).calcDir i j
  let c ← t.connectors[d]?
  let s ← c[0]?
  let h ← (if t.const then some 0 else (t.kind.base N).handle i j)
  s[h + 1]?

/-- The list of the matrix of a bond, for a term with more orbitals. -/
def TermSpec.matrix (N : Nat) (t : TermSpec) (i j : Nat) : Option (List Str) := do
  let d ← (t.kind.base N).calcDir i j
  let c ← t.connectors[d]?
  let h ← (if t.const then some 0 else (t.kind.base N).handle i j)
  c[h]?

end Verif.Geom
