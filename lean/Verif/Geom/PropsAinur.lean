import Verif.Geom.ModelAinur
import Verif.Geom.PropsInput

/-!
# C113: geometries from Ainur inputs
-/

namespace Verif.Geom

open Verif.Dense Verif.InputNg

variable {α : Type}

/-- One term of a geometry, with the values of its labels (`none`: there is no such label, or it has no value). -/
structure ATerm (α : Type) where
  dof : Option Nat
  kind : KindSpec
  options : Str
  dirs : List (DirData α)

/-- Number of orbitals of a term. -/
def ATerm.orbitals (t : ATerm α) : Nat := t.dof.getD 1

/-- Whether the values of a term are the same for all bonds of a direction. -/
def ATerm.const (t : ATerm α) : Bool := decide ("ConstantValues".toList <:+: t.options)

/-- A label that may be there or not. -/
def AEntry {β : Type} (f : Str → Out β) (label : Str) : Option β → Prop
  | some x => f label = .ok x
  | none => f label = throwOut

/-- The labels of a ladder. -/
def LadderAt (io : AIn α) (p : Str) (leg : Nat) (px py : Option Int) : Prop :=
  io.size (p ++ "LadderLeg".toList) = .ok leg ∧ AEntry io.int (p ++ "IsPeriodicX".toList) px ∧
    AEntry io.int (p ++ "IsPeriodicY".toList) py

/-- The labels of the kind. -/
def KindSpec.At (io : AIn α) (p : Str) : KindSpec → Prop
  | .chain px d => AEntry io.int (p ++ "IsPeriodicX".toList) px ∧ AEntry io.int (p ++ "LongChainDistance".toList) (d.map Int.ofNat)
  | .ladder leg px py => LadderAt io p leg px py
  | .star => True
  | .ktwo sc => io.int (p ++ "SignChange".toList) = .ok sc
  | .ladderx leg px py => LadderAt io p leg px py
  | .bath n leg px py => io.size (p ++ "BathSitesPerSite".toList) = .ok n ∧ LadderAt io p leg px py
  | .honeycomb ly py px => io.size (p ++ "HoneycombLy".toList) = .ok ly ∧ io.int (p ++ "IsPeriodicY".toList) = .ok py ∧
      AEntry io.int (p ++ "IsPeriodicX".toList) px

/-- The label of a list or matrix of a direction. -/
def connLabel (d : Nat) (more : Str) : Str := "dir".toList ++ Nat.toDigits 10 d ++ ":Connectors".toList ++ more

/-- The labels of a term, all of them after `p`: with one orbital a list for each direction; with more a matrix for each direction,
or several matrices that are numbered. -/
structure ATerm.At (io : AIn α) (p : Str) (t : ATerm α) : Prop where
  dof : AEntry io.size (p ++ "DegreesOfFreedom".toList) t.dof
  name : io.text (p ++ "GeometryKind".toList) = .ok t.kind.name
  options : io.text (p ++ "GeometryOptions".toList) = .ok t.options
  kind : t.kind.At io p
  modifier : io.text (p ++ "GeometryValueModifier".toList) = throwOut
  numbers : t.orbitals = 1 → ∀ d dd, t.dirs[d]? = some dd → dd.matrices = [] ∧ io.vec (p ++ connLabel d []) = .ok dd.numbers
  matrices : t.orbitals ≠ 1 → ∀ d dd, t.dirs[d]? = some dd → dd.numbers = [] ∧
    ∀ i m, dd.matrices[i]? = some m →
      io.mat (p ++ connLabel d (if dd.matrices.length = 1 then [] else Nat.toDigits 10 i)) = .ok m

/-- The labels of a geometry: those of a term start with its number if there are several terms. -/
structure AGeo (io : AIn α) (N : Nat) (ts : List (ATerm α)) : Prop where
  sites : io.int "TotalNumberOfSites".toList = .ok (N : Int)
  count : io.int "NumberOfTerms".toList = .ok (ts.length : Int)
  terms : ∀ k (t : ATerm α), ts[k]? = some t →
    t.At io (if ts.length = 1 then [] else "gt".toList ++ Nat.toDigits 10 k ++ [':'])

/-- The term is complete. -/
structure ATerm.Ok (N : Nat) (t : ATerm α) : Prop where
  kind : t.kind.Ok N
  dof : 0 < t.orbitals
  data : DataOk (t.kind.base N) t.orbitals t.const t.dirs

/-! ## Running -/

theorem act_bind {β γ : Type} {a : Act β} {p q : Str} {x : β} (h : a p = (.ok x, q)) (f : β → Act γ) : (a >>= f) p = f x q := by
  show Act.then a f p = _
  unfold Act.then
  rw [h]

theorem act_error {β γ : Type} {a : Act β} {p q : Str} {e : Bad} (h : a p = (.error e, q)) (f : β → Act γ) :
    (a >>= f) p = (.error e, q) := by
  show Act.then a f p = _
  unfold Act.then
  rw [h]

theorem line_run {β : Type} {f : Str → Out β} {p l : Str} {x : β} (h : f (p ++ l) = .ok x) :
    getLine f (l ++ ['=']) p = (.ok x, p) := by
  have : bare (l ++ ['=']) = l := by simp [bare]
  rw [getLine, this, h]

theorem try_run {β : Type} {f : Str → Out β} {p l : Str} {x : Option β} (h : AEntry f (p ++ l) x) :
    tryLine f (l ++ ['=']) p = (.ok x, p) := by
  have : bare (l ++ ['=']) = l := by simp [bare]
  rw [tryLine, this]
  cases x with
  | none => rw [show f (p ++ l) = throwOut from h]; rfl
  | some x => rw [show f (p ++ l) = .ok x from h]; rfl

theorem ladder_ctor {N leg : Nat} {px py : Option Int} (hok : LadderOk N leg px py) (junk : Bool) :
    Ladder.ctor N leg px py junk = some (some (ladderOf N leg px py)) := by
  obtain ⟨h1, h2, h3, h4, h5, h6⟩ := hok
  unfold Ladder.ctor ladderOf
  cases py with
  | none =>
    have hl : leg = 2 := by
      by_contra hne
      exact h6 hne rfl
    subst hl
    simp only [show ¬ (2 > 2) by omega, if_false]
    rw [if_neg (by omega), if_neg (by rw [Nat.mod_eq_zero_of_dvd h5]; simp)]
    cases px <;> simp [on]
  | some y =>
    simp only []
    rw [if_neg (by omega), if_neg (by rw [Nat.mod_eq_zero_of_dvd h5]; simp)]
    cases px <;> simp [on]

theorem ladder_run {io : AIn α} {p : Str} {N leg : Nat} {px py : Option Int} (hok : LadderOk N leg px py) (h : LadderAt io p leg px py)
    (junk : Bool) : aLadder io junk N p = (.ok (ladderOf N leg px py), p) := by
  unfold aLadder
  rw [lab_leg, lab_px, lab_py]
  refine (act_bind (line_run h.1) _).trans ((act_bind (try_run h.2.1) _).trans ((act_bind (try_run h.2.2) _).trans ?_))
  rw [Act.of, ladder_ctor hok]

theorem akind_chain (io : AIn α) (junk : Bool) (N : Nat) : aKind io junk "chain".toList N = (do
    let px ← tryLine io.int "IsPeriodicX=".toList
    let d ← tryLine io.int "LongChainDistance=".toList
    return some (chainBase (LongChain.ctor N px (d.map fun d => (d % 2 ^ 64).toNat)))) := by
  unfold aKind
  rw [if_pos (Or.inl (by rfl))]

theorem akind_ladder (io : AIn α) (junk : Bool) (N : Nat) : aKind io junk "ladder".toList N = (do
    let g ← aLadder io junk N
    return some (ladderBase g)) := by
  unfold aKind
  rw [if_neg (by decide), if_neg (by decide), if_pos (by rfl)]

/-- **C113** A ladder with more than two legs without `IsPeriodicY`, and one whose number of sites is not a multiple of its legs, is
refused. -/
theorem ladder_refused_ainur {io : AIn α} {p : Str} {N leg : Nat} {px py : Option Int} (hbad : LadderBad N leg py)
    (h : LadderAt io p leg px py) (junk : Bool) : aKind io junk "ladder".toList N p = (throwOut, p) := by
  have : aLadder io junk N p = (throwOut, p) := by
    unfold aLadder
    rw [lab_leg, lab_px, lab_py]
    refine (act_bind (line_run h.1) _).trans ((act_bind (try_run h.2.1) _).trans ((act_bind (try_run h.2.2) _).trans ?_))
    rw [Act.of, ladder_ctor_bad hbad]
  rw [akind_ladder]
  exact act_error this _

/-- For instance three legs, and seven sites with two legs. -/
example : LadderBad 6 3 none ∧ LadderBad 7 2 none := ⟨⟨by decide, .inl ⟨by decide, rfl⟩⟩, ⟨by decide, .inr (by decide)⟩⟩

theorem akind_star (io : AIn α) (junk : Bool) (N : Nat) : aKind io junk "star".toList N = Act.ret (some (starBase N)) := by
  unfold aKind
  rw [if_neg (by decide), if_neg (by decide), if_neg (by decide), if_neg (by decide), if_neg (by decide), if_neg (by decide),
    if_pos (by rfl)]
  rfl

theorem akind_ktwo (io : AIn α) (junk : Bool) (N : Nat) : aKind io junk "ktwoniffour".toList N = (do
    let sc ← getLine io.int "SignChange=".toList
    return some (ktwoBase N sc)) := by
  unfold aKind
  rw [if_neg (by decide), if_neg (by decide), if_neg (by decide), if_neg (by decide), if_neg (by decide), if_pos (by rfl)]

theorem akind_ladderx (io : AIn α) (junk : Bool) (N : Nat) : aKind io junk "ladderx".toList N = (do
    let g ← aLadder io junk N
    return some (ladderxBase ⟨g⟩)) := by
  unfold aKind
  rw [if_neg (by decide), if_neg (by decide), if_neg (by decide), if_pos (by rfl)]

theorem akind_bath (io : AIn α) (junk : Bool) (N : Nat) : aKind io junk "ladderbath".toList N = (do
    let n ← getLine io.size "BathSitesPerSite=".toList
    let g ← aLadder io junk (N / (1 + n))
    return some (bathBase ⟨N, n, N / (1 + n), g⟩)) := by
  unfold aKind
  rw [if_neg (by decide), if_neg (by decide), if_neg (by decide), if_neg (by decide), if_pos (by rfl)]

theorem akind_honeycomb (io : AIn α) (junk : Bool) (N : Nat) : aKind io junk "Honeycomb".toList N = (do
    let ly ← getLine io.size "HoneycombLy=".toList
    let py ← getLine io.int "IsPeriodicY=".toList
    let px ← tryLine io.int "IsPeriodicX=".toList
    Act.of (match Honeycomb.ctor N (some ly) (some py) px with
      | none => throwOut
      | some g => .ok (some (honeyBase g)))) := by
  unfold aKind
  rw [if_neg (by decide), if_neg (by decide), if_neg (by decide), if_neg (by decide), if_neg (by decide), if_neg (by decide),
    if_neg (by decide), if_neg (by decide), if_pos (by rfl)]
  rfl

theorem kind_run {io : AIn α} {p : Str} {N : Nat} {k : KindSpec} (hok : k.Ok N) (h : k.At io p) (junk : Bool) :
    aKind io junk k.name N p = (.ok (some (k.base N)), p) := by
  cases k with
  | chain px d =>
    refine (congrFun (akind_chain io junk N) p).trans ?_
    rw [lab_px, lab_distance]
    refine (act_bind (try_run h.1) _).trans ((act_bind (try_run h.2) _).trans ?_)
    rw [chain_ctor N px d hok.2]
    rfl
  | ladder leg px py =>
    exact (congrFun (akind_ladder io junk N) p).trans ((act_bind (ladder_run hok h junk) _).trans rfl)
  | star => exact congrFun (akind_star io junk N) p
  | ktwo sc =>
    refine (congrFun (akind_ktwo io junk N) p).trans ?_
    rw [lab_sign]
    exact (act_bind (line_run h) _).trans rfl
  | ladderx leg px py =>
    exact (congrFun (akind_ladderx io junk N) p).trans ((act_bind (ladder_run hok h junk) _).trans rfl)
  | bath n leg px py =>
    refine (congrFun (akind_bath io junk N) p).trans ?_
    rw [lab_bath]
    exact (act_bind (line_run h.1) _).trans ((act_bind (ladder_run hok.2 h.2 junk) _).trans rfl)
  | honeycomb ly py px =>
    refine (congrFun (akind_honeycomb io junk N) p).trans ?_
    rw [lab_ly, lab_py, lab_px]
    refine (act_bind (line_run h.1) _).trans ((act_bind (line_run h.2.1) _).trans ((act_bind (try_run h.2.2) _).trans ?_))
    cases px <;> rfl

theorem matrices_run {io : AIn α} {p : Str} {orbs n : Nat} (ms : List (Mat α)) (hs : ∀ m ∈ ms, Shape m orbs orbs) :
    ∀ (todo done : List (Mat α)), ms = done ++ todo →
      (∀ i m, ms[i]? = some m → io.mat (p ++ ("Connectors".toList ++ extra n i)) = .ok m) →
      aMatrices io orbs n todo.length done p = (.ok ms, p) := by
  intro todo
  induction todo with
  | nil =>
    intro done e _
    rw [List.append_nil] at e
    subst e
    rfl
  | cons m todo ih =>
    intro done e h
    have hm : ms[done.length]? = some m := by rw [e]; simp
    have hsm := hs m (List.mem_of_getElem? hm)
    rw [List.length_cons, aMatrices]
    have e1 : getData io.mat ("Connectors".toList ++ extra n done.length) p = (.ok m, p) := by
      rw [getData, h _ _ hm]
    refine (act_bind e1 _).trans ?_
    have hno : ¬ (orbs ≠ m.nrow ∨ orbs ≠ m.ncol) := by
      rw [hsm.nrow, hsm.ncol]; simp
    rw [if_neg hno]
    exact ih (done ++ [m]) (by rw [e]; simp) h

/-- **C113** A list of connectors of another length than the geometry says is refused. -/
theorem connectors_refused_ainur {io : AIn α} {p : Str} {orbitals n : Nat} {xs : List α} (ho : orbitals ≤ 1)
    (h : io.vec (p ++ "Connectors".toList) = .ok xs) (hx : xs.length ≠ n) : aData io orbitals n p = (throwOut, p) := by
  unfold aData
  rw [if_neg (by omega)]
  have e1 : getData io.vec "Connectors".toList p = (.ok xs, p) := by
    rw [getData, h]
  refine (act_bind e1 _).trans ?_
  rw [if_pos hx]
  rfl

theorem direction_run {io : AIn α} {p : Str} {N : Nat} {t : ATerm α} (ht : t.Ok N) (h : t.At io p) {d : Nat} {dd : DirData α}
    (hd : t.dirs[d]? = some dd) : aDirection io (t.kind.base N) t.const t.orbitals d p = (.ok dd, p) := by
  have hp : dirPrefix d ++ "Connectors".toList = connLabel d [] := by
    unfold dirPrefix connLabel
    rw [List.append_nil, List.append_assoc _ [':']]
    rfl
  unfold aDirection
  by_cases ho : t.orbitals = 1
  · obtain ⟨h1, h2⟩ := h.numbers ho d dd hd
    rw [ht.data.nums ho d dd hd]
    simp only
    refine (act_bind (a := getPrefix) (p := p) (q := p) (x := p) rfl _).trans ?_
    refine (act_bind (a := addPrefix (dirPrefix d)) (p := p) (q := p ++ dirPrefix d) (x := ()) rfl _).trans ?_
    have e : aData io t.orbitals dd.numbers.length (p ++ dirPrefix d) = (.ok dd, p ++ dirPrefix d) := by
      unfold aData
      rw [if_neg (by omega)]
      have e1 : getData io.vec "Connectors".toList (p ++ dirPrefix d) = (.ok dd.numbers, p ++ dirPrefix d) := by
        rw [getData, List.append_assoc, hp, h2]
      refine (act_bind e1 _).trans ?_
      rw [if_neg (by simp)]
      cases dd
      simp only at h1
      subst h1
      rfl
    refine (act_bind e _).trans ?_
    rfl
  · obtain ⟨h1, h2⟩ := h.matrices ho d dd hd
    obtain ⟨⟨n, h3, h4⟩, h5⟩ := ht.data.mats ho d dd hd
    rw [h3]
    simp only
    refine (act_bind (a := getPrefix) (p := p) (q := p) (x := p) rfl _).trans ?_
    refine (act_bind (a := addPrefix (dirPrefix d)) (p := p) (q := p ++ dirPrefix d) (x := ()) rfl _).trans ?_
    have hn : (if n = 0 then 1 else n) = dd.matrices.length := by
      rw [h4]
      split <;> omega
    have h6 : 1 ≤ dd.matrices.length := by omega
    have e : aData io t.orbitals n (p ++ dirPrefix d) = (.ok dd, p ++ dirPrefix d) := by
      unfold aData
      have := ht.dof
      rw [if_pos (by omega), hn]
      have e1 := matrices_run (io := io) (p := p ++ dirPrefix d) (orbs := t.orbitals) (n := dd.matrices.length) dd.matrices h5
        dd.matrices [] rfl (by
          intro i m hm
          have h7 := h2 i m hm
          rw [← h7]
          congr 1
          rw [List.append_assoc]
          congr 1
          unfold extra connLabel dirPrefix
          by_cases hl : dd.matrices.length = 1
          · rw [if_pos hl, if_neg (by omega)]
            simp
          · rw [if_neg hl, if_pos (by omega)]
            simp)
      refine (act_bind e1 _).trans ?_
      cases dd
      simp only at h1
      subst h1
      rfl
    refine (act_bind e _).trans ?_
    rfl

theorem directions_run {io : AIn α} {p : Str} {N : Nat} {t : ATerm α} (ht : t.Ok N) (h : t.At io p) :
    ∀ (todo done : List (DirData α)), t.dirs = done ++ todo →
      aDirections io (t.kind.base N) t.const t.orbitals todo.length done p = (.ok t.dirs, p) := by
  intro todo
  induction todo with
  | nil =>
    intro done e
    rw [List.append_nil] at e
    rw [e]
    rfl
  | cons dd todo ih =>
    intro done e
    rw [List.length_cons, aDirections]
    refine (act_bind (direction_run ht h (d := done.length) (dd := dd) (by rw [e]; simp)) _).trans ?_
    exact ih (done ++ [dd]) (by rw [e]; simp)

/-- The term that is built. -/
def ABuilt [Mul α] [Star α] [IntCast α] [Zero α] (N : Nat) (t : ATerm α) (x : Term α) : Prop :=
  x.orbitals = t.orbitals ∧ x.base = some (t.kind.base N) ∧ x.options = t.options ∧
    cacheValues (t.kind.base N) N t.orbitals t.const t.dirs = some x.cached

variable [CommRing α] [StarRing α]

theorem body_run {io : AIn α} {p : Str} {N : Nat} {t : ATerm α} (ht : t.Ok N) (hg : Good (t.kind.base N) N t.orbitals t.const)
    (h : t.At io p) (junk : Bool) : ∃ x, aTermBody io junk N p = (.ok x, p) ∧ ABuilt N t x := by
  obtain ⟨c, hc, -⟩ := cache_spec (t.kind.base N) N t.orbitals t.const hg _ ht.data
  refine ⟨⟨t.orbitals, some (t.kind.base N), t.options, c⟩, ?_, rfl, rfl, rfl, hc⟩
  unfold aTermBody
  rw [lab_dof, lab_kind, lab_options]
  refine (act_bind (try_run h.dof) _).trans ?_
  have ho : ¬ t.dof.getD 1 = 0 := by have := ht.dof; unfold ATerm.orbitals at this; omega
  rw [if_neg ho]
  refine (act_bind (line_run h.name) _).trans ((act_bind (line_run h.options) _).trans
    ((act_bind (kind_run ht.kind h.kind junk) _).trans ?_))
  unfold aFinish
  simp only
  have e1 := directions_run ht h t.dirs [] rfl
  rw [ht.data.len] at e1
  refine (act_bind e1 _).trans ?_
  have e2 : noModifier io p = (.ok (), p) := by
    unfold noModifier
    rw [lab_modifier]
    exact (act_bind (try_run (x := none) h.modifier) _).trans rfl
  refine (act_bind e2 _).trans ?_
  have hc' : cacheValues (t.kind.base N) N (t.dof.getD 1) (decide ("ConstantValues".toList <:+: t.options)) t.dirs = some c := hc
  rw [hc']
  rfl

theorem term_run {io : AIn α} {p : Str} {N n k : Nat} {t : ATerm α} (ht : t.Ok N) (hg : Good (t.kind.base N) N t.orbitals t.const)
    (h : t.At io (p ++ termPrefix n k)) (junk : Bool) : ∃ x, aTerm io junk N n k p = (.ok x, p) ∧ ABuilt N t x := by
  obtain ⟨x, e, hx⟩ := body_run ht hg h junk
  refine ⟨x, ?_, hx⟩
  unfold aTerm
  refine (act_bind (a := getPrefix) (p := p) (q := p) (x := p) rfl _).trans ?_
  refine (act_bind (a := addPrefix (termPrefix n k)) (p := p) (q := p ++ termPrefix n k) (x := ()) rfl _).trans ?_
  exact (act_bind e _).trans rfl

theorem terms_run {io : AIn α} {N n : Nat} (junk : Bool) :
    ∀ (todo : List (ATerm α)) (done : List (Term α)),
      (∀ k (t : ATerm α), todo[k]? = some t → t.Ok N ∧ Good (t.kind.base N) N t.orbitals t.const ∧ t.At io (termPrefix n (done.length + k))) →
      ∃ ys, aTerms io junk N n todo.length done [] = (.ok (done ++ ys), []) ∧ List.Forall₂ (ABuilt N) todo ys := by
  intro todo
  induction todo with
  | nil => intro done _; exact ⟨[], by simp [aTerms, Act.ret], .nil⟩
  | cons t todo ih =>
    intro done h
    obtain ⟨h1, h2, h3⟩ := h 0 t rfl
    obtain ⟨x, e, hx⟩ := term_run (p := []) (n := n) (k := done.length) h1 h2 (by simpa using h3) junk
    obtain ⟨ys, e2, hy⟩ := ih (done ++ [x]) (by
      intro k t' hk
      have := h (k + 1) t' hk
      rw [List.length_append, List.length_singleton]
      rwa [show done.length + 1 + k = done.length + (k + 1) by omega])
    refine ⟨x :: ys, ?_, .cons hx hy⟩
    rw [List.length_cons, aTerms]
    refine (act_bind e _).trans ?_
    rw [e2]
    simp

/-- **C113** An Ainur input gives the geometry that its labels describe, and `prefix()` is empty afterwards as it was before.  With
one term the labels have no prefix; with several each term has its own labels, independent of those of other terms (in
particular it may leave out any optional label).  The values are: zero between sites that are not connected; with one orbital the
number at the place of the bond in the list of its direction, in both orders of the sites; with more orbitals the element of the
matrix of the bond with the sign of the bond, and the conjugate in the other order. -/
theorem geometry_ainur {io : AIn α} {N : Nat} {ts : List (ATerm α)} (hf : AGeo io N ts) (ht : ∀ t ∈ ts, t.Ok N)
    (hg : ∀ t ∈ ts, Good (t.kind.base N) N t.orbitals t.const) (junk : Bool) :
    ∃ geo, aGeo io junk [] = (.ok geo, []) ∧ geo.linSize = N ∧ geo.terms.length = ts.length ∧
      ∀ k t, ts[k]? = some t →
        (∃ x, geo.terms[k]? = some x ∧ x.orbitals = t.orbitals ∧ x.options = t.options) ∧
        (t.orbitals = 1 → ∀ i j k1 k2, i < N → j < N → (t.kind.base N).index i 0 1 = some (some k1) →
          (t.kind.base N).index j 0 1 = some (some k2) →
          geo.value j 0 i 0 k = geo.value i 0 j 0 k ∧
          ((t.kind.base N).connected i j = some false → geo.value i 0 j 0 k = some 0) ∧
          ((t.kind.base N).connected i j = some true → ∃ d dd h x, (t.kind.base N).calcDir i j = some d ∧ t.dirs[d]? = some dd ∧
            (if t.const then some 0 else (t.kind.base N).handle i j) = some h ∧ dd.numbers[h]? = some x ∧
            geo.value i 0 j 0 k = some x)) ∧
        (t.orbitals ≠ 1 → ∀ i j e e' k1 k2, j ≤ i → i < N → e < t.orbitals → e' < t.orbitals →
          (t.kind.base N).index i e t.orbitals = some (some k1) → (t.kind.base N).index j e' t.orbitals = some (some k2) →
          ((t.kind.base N).connected i j = some false → geo.value i e j e' k = some 0 ∧ geo.value j e' i e k = some 0) ∧
          ((t.kind.base N).connected i j = some true → ∃ d dd h m x, ∃ sign : Int, (t.kind.base N).calcDir i j = some d ∧
            t.dirs[d]? = some dd ∧ (if t.const then some 0 else (t.kind.base N).handle i j) = some h ∧ dd.matrices[h]? = some m ∧
            m.get e e' = some x ∧ (t.kind.base N).signChange i j = some sign ∧ geo.value i e j e' k = some (x * (sign : α)) ∧
            geo.value j e' i e k = some (star (x * (sign : α))))) := by
  have hpre : ∀ k, (if ts.length = 1 then [] else "gt".toList ++ Nat.toDigits 10 k ++ [':']) = termPrefix ts.length k ∨ ts = [] := by
    intro k
    by_cases h0 : ts = []
    · exact Or.inr h0
    · left
      have := List.length_pos_of_ne_nil h0
      unfold termPrefix
      by_cases h1 : ts.length = 1
      · rw [if_pos h1, if_neg (by omega)]
      · rw [if_neg h1, if_pos (by omega)]
  obtain ⟨ys, e, b⟩ := terms_run (io := io) (N := N) (n := ts.length) junk ts [] (by
    intro k t hk
    have hm := List.mem_of_getElem? hk
    refine ⟨ht t hm, hg t hm, ?_⟩
    rcases hpre k with h | h
    · rw [List.length_nil, Nat.zero_add, ← h]
      exact hf.terms k t hk
    · rw [h] at hm
      cases hm)
  refine ⟨⟨N, ys⟩, ?_, rfl, b.length_eq.symm, ?_⟩
  · unfold aGeo
    rw [lab_sites, lab_terms]
    refine (act_bind (line_run (p := []) hf.sites) _).trans ?_
    rw [if_neg (by omega)]
    refine (act_bind (line_run (p := []) hf.count) _).trans ?_
    rw [if_neg (by omega)]
    simp only [Int.toNat_natCast]
    exact (act_bind e _).trans rfl
  intro k t hkt
  have htm : t ∈ ts := List.mem_of_getElem? hkt
  have hd := (ht t htm).data
  have hgt := hg t htm
  have hlt : k < ts.length := (List.getElem?_eq_some_iff.1 hkt).1
  have hlt' : k < ys.length := by rw [← b.length_eq]; exact hlt
  have hy : ys[k]? = some ys[k] := List.getElem?_eq_getElem hlt'
  have hb : ABuilt N t ys[k] := by
    have := List.forall₂_iff_get.1 b
    have := this.2 k hlt hlt'
    rw [List.getElem?_eq_getElem hlt] at hkt
    cases hkt
    exact this
  generalize ys[k] = y at hy hb
  obtain ⟨b1, b2, b3, b4⟩ := hb
  have hval : ∀ i e j e', Geo.value ⟨N, ys⟩ i e j e' k = termValue (t.kind.base N) t.orbitals y.cached i e j e' := by
    intro i e j e'
    unfold Geo.value
    simp only [hy, b2, b1, bind, Option.bind]
  refine ⟨⟨y, hy, b1, b3⟩, ?_, ?_⟩
  · intro ho i j k1 k2 hi hj hi1 hi2
    rw [ho] at b4 hval hd hgt
    obtain ⟨c, hc, hv⟩ := connectors_number _ N _ hgt _ hd
    rw [hc] at b4
    cases b4
    obtain ⟨hs, hv⟩ := hv i j k1 k2 hi hj hi1 hi2
    rw [hval, hval]
    refine ⟨hs.symm, ?_, ?_⟩
    · intro hcon
      rcases hv with hv | hv
      · exact hv.2
      · rw [hcon] at hv
        cases hv.1
    · intro hcon
      rcases hv with hv | hv
      · rw [hcon] at hv
        cases hv.1
      · exact hv.2
  · intro ho i j e e' k1 k2 hij hi he he' hi1 hi2
    have ho1 : 1 < t.orbitals := by have := (ht t htm).dof; omega
    obtain ⟨c, hc, hv⟩ := connectors_matrix _ N _ _ hgt _ hd ho1
    obtain ⟨c', hc', hv'⟩ := connectors_hermitian _ N _ _ hgt _ hd ho1
    rw [hc] at hc'
    cases hc'
    rw [hc] at b4
    cases b4
    obtain ⟨v, w1, w2⟩ := hv' i j e e' k1 k2 hi (by omega) he he' hi1 hi2
    rw [hval, hval]
    refine ⟨?_, ?_⟩
    · intro hcon
      rcases hv i j e e' k1 k2 hij hi he he' hi1 hi2 with hv | hv
      · rw [hv.2] at w1
        cases w1
        exact ⟨hv.2, by rw [w2, star_zero]⟩
      · rw [hcon] at hv
        cases hv.1
    · intro hcon
      rcases hv i j e e' k1 k2 hij hi he he' hi1 hi2 with hv | ⟨-, d, dd, hh, m, s, x, q1, q2, q3, q4, q5, q6, q7⟩
      · rw [hcon] at hv
        cases hv.1
      · rw [q7] at w1
        cases w1
        exact ⟨d, dd, hh, m, x, s, q1, q2, q3, q4, q6, q5, q7, w2⟩

/-- **C113** (finding) If the first of several terms has no kind the constructor throws, and `prefix()` is not restored: what is read
afterwards is looked for among the labels of that term. -/
theorem prefix_kept_fails (io : AIn α) (N n : Nat) (hn : 1 < n) (dof : Option Nat) (junk : Bool)
    (h1 : io.int "TotalNumberOfSites".toList = .ok (N : Int)) (h2 : io.int "NumberOfTerms".toList = .ok (n : Int))
    (h3 : AEntry io.size "gt0:DegreesOfFreedom".toList dof) (h4 : dof ≠ some 0)
    (h5 : io.text "gt0:GeometryKind".toList = throwOut) :
    aGeo io junk [] = (throwOut, "gt0:".toList) ∧
      ∀ {β : Type} (f : Str → Out β) (l : Str), (getLine f (l ++ ['='])) (aGeo io junk []).2 = (f ("gt0:".toList ++ l), "gt0:".toList) := by
  have key : aGeo io junk [] = (throwOut, "gt0:".toList) := by
    unfold aGeo
    rw [lab_sites, lab_terms]
    refine (act_bind (line_run (p := []) h1) _).trans ?_
    rw [if_neg (by omega)]
    refine (act_bind (line_run (p := []) h2) _).trans ?_
    rw [if_neg (by omega)]
    simp only [Int.toNat_natCast]
    refine act_error ?_ _
    obtain ⟨m, rfl⟩ : ∃ m, n = m + 1 := ⟨n - 1, by omega⟩
    rw [aTerms]
    refine act_error ?_ _
    unfold aTerm
    refine (act_bind (a := getPrefix) (p := []) (q := []) rfl _).trans ?_
    have hp : termPrefix (m + 1) ([] : List (Term α)).length = "gt0:".toList := by
      unfold termPrefix
      rw [if_pos hn]
      show "gt".toList ++ Nat.toDigits 10 0 ++ [':'] = _
      decide
    rw [hp]
    refine (act_bind (a := addPrefix _) (p := []) (q := "gt0:".toList) rfl _).trans ?_
    refine act_error ?_ _
    unfold aTermBody
    rw [lab_dof, lab_kind]
    refine (act_bind (try_run (p := "gt0:".toList) h3) _).trans ?_
    rw [if_neg (by cases dof with | none => simp | some d => simpa using h4)]
    refine act_error ?_ _
    have : bare ("GeometryKind".toList ++ ['=']) = "GeometryKind".toList := by decide
    rw [getLine, this]
    show (io.text "gt0:GeometryKind".toList, _) = _
    rw [h5]
    rfl
  refine ⟨key, ?_⟩
  intro β f l
  have : bare (l ++ ['=']) = l := by simp [bare]
  rw [key, getLine, this]

/-! ## Example: a chain and a periodic ladder, only the second with the optional labels -/

/-- Answers from a table. -/
def table {β : Type} (l : List (String × β)) (k : Str) : Out β :=
  match l.find? fun e => e.1.toList = k with
  | none => throwOut
  | some e => .ok e.2

/-- An input. -/
def exAin : AIn Int where
  int := table [("TotalNumberOfSites", 8), ("NumberOfTerms", 2), ("gt1:IsPeriodicX", 1)]
  size := table [("gt1:LadderLeg", 2), ("gt1:DegreesOfFreedom", 1)]
  text := table [("gt0:GeometryKind", "chain".toList), ("gt0:GeometryOptions", "none".toList),
    ("gt1:GeometryKind", "ladder".toList), ("gt1:GeometryOptions", "ConstantValues".toList)]
  vec := table [("gt0:dir0:Connectors", [1, 2, 3, 4, 5, 6, 7]), ("gt1:dir0:Connectors", [8]), ("gt1:dir1:Connectors", [9])]
  mat := fun _ => throwOut

/-- Its terms. -/
def exTerms : List (ATerm Int) :=
  [⟨none, .chain none none, "none".toList, [⟨[1, 2, 3, 4, 5, 6, 7], []⟩]⟩,
   ⟨some 1, .ladder 2 (some 1) none, "ConstantValues".toList, [⟨[8], []⟩, ⟨[9], []⟩]⟩]

theorem exTerms_at : AGeo exAin 8 exTerms where
  sites := by decide +kernel
  count := by decide +kernel
  terms := by
    intro k t hk
    match k, hk with
    | 0, hk =>
      cases hk
      refine ⟨?_, by decide +kernel, by decide +kernel, ⟨?_, ?_⟩, by decide +kernel, ?_, fun h => absurd rfl h⟩
      · show _ = throwOut; decide +kernel
      · show _ = throwOut; decide +kernel
      · show _ = throwOut; decide +kernel
      · intro _ d dd hd
        match d, hd with
        | 0, hd => cases hd; exact ⟨rfl, by decide +kernel⟩
    | 1, hk =>
      cases hk
      refine ⟨?_, by decide +kernel, by decide +kernel, ⟨by decide +kernel, ?_, ?_⟩, by decide +kernel, ?_, fun h => absurd rfl h⟩
      · show _ = Except.ok 1; decide +kernel
      · show _ = Except.ok 1; decide +kernel
      · show _ = throwOut; decide +kernel
      · intro _ d dd hd
        match d, hd with
        | 0, hd => cases hd; exact ⟨rfl, by decide +kernel⟩
        | 1, hd => cases hd; exact ⟨rfl, by decide +kernel⟩

example : ∀ t ∈ exTerms, t.Ok 8 ∧ Good (t.kind.base 8) 8 t.orbitals t.const := by
  intro t ht
  simp only [exTerms, List.mem_cons, List.not_mem_nil, or_false] at ht
  rcases ht with rfl | rfl
  · refine ⟨⟨by simp [KindSpec.Ok], by decide, by decide, ?_, fun h => absurd rfl h⟩,
      chain_good ⟨8, false, 1⟩ (by decide) (by decide) _ _ (.inr (.inl rfl))⟩
    intro _ d c hc
    match d, hc with
    | 0, hc => cases hc; decide +kernel
  · refine ⟨⟨by simp [KindSpec.Ok, LadderOk], by decide, by decide, ?_, fun h => absurd rfl h⟩,
      ladder_good ⟨8, 2, true, false⟩ (by constructor <;> decide) _ _⟩
    intro _ d c hc
    match d, hc with
    | 0, hc => cases hc; decide +kernel
    | 1, hc => cases hc; decide +kernel

/-- The values: the ends of the chain are not connected, those of the ladder are. -/
example : ((aGeo exAin false []).1.map fun g =>
    [g.value 0 0 1 0 0, g.value 7 0 6 0 0, g.value 0 0 7 0 0, g.value 0 0 2 0 1, g.value 1 0 0 0 1, g.value 6 0 0 0 1, g.value 0 0 3 0 1]) =
    .ok [some 1, some 7, some 0, some 8, some 9, some 8, some 0] := by decide +kernel

end Verif.Geom
