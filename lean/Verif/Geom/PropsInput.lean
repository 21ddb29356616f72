import Verif.Geom.SpecInput
import Verif.Geom.PropsTerm
import Verif.Geom.PropsGood
import Verif.InputNg.PropsValues

/-! # Geometries from input files -/

namespace Verif.Geom

open Verif Verif.Dense Verif.InputNg Verif.StrUtil Verif.Loop

/-- The reader stands before the texts `T` and the lists `V`. -/
def Pos (ls : List Line) (r : Readable) (T : List (Str × Str)) (V : List (List Str)) : Prop :=
  ∃ past, After ls past r ∧
    (∀ l ∈ geoLabels, ∃ don, occ (texts ls) l = don ++ occ T l ∧ (occ (texts ls) l ≠ [] → movedText past l = don.length)) ∧
    ∃ don, occ (vecs ls) "Connectors".toList = don ++ V ∧
      (occ (vecs ls) "Connectors".toList ≠ [] → movedVec past "Connectors".toList = don.length)

theorem geo_ok : ∀ l ∈ geoLabels, l ≠ [] ∧ '@' ∉ l ∧ l.getLast? ≠ some '=' := by decide +kernel

theorem next_index {β : Type} (A B : List β) (v : β) : (A ++ v :: B)[min A.length ((A ++ v :: B).length - 1)]? = some v := by
  rw [show min A.length ((A ++ v :: B).length - 1) = A.length by simp]
  simp

theorem occ_cons {β : Type} (l l' : Str) (v : β) (T : List (Str × β)) :
    occ ((l, v) :: T) l' = if l = l' then v :: occ T l' else occ T l' := by
  unfold occ
  by_cases h : l = l'
  · simp [h]
  · simp [h]

/-- The next text is read. -/
theorem pos_text {ls : List Line} (hk : KindsApart ls) {r : Readable} {l v : Str} {T : List (Str × Str)} {V : List (List Str)}
    (hl : l ∈ geoLabels) (h : Pos ls r ((l, v) :: T) V) :
    ∃ r', readline r (l ++ ['=']) = .ok (v, r') ∧ Pos ls r' T V := by
  obtain ⟨past, ha, ht, dv, hv1, hv2⟩ := h
  obtain ⟨g1, g2, g3⟩ := geo_ok l hl
  rw [readline_equal r l g1 g3]
  obtain ⟨don, hd, hm⟩ := ht l hl
  rw [occ_cons, if_pos (by rfl)] at hd
  have hm' := hm (by rw [hd]; simp)
  rcases call_step ls hk past r ha (.text l true) ⟨g1, g2, g3⟩ with ⟨h1, -, -⟩ | ⟨a, r', h1, h2, h3⟩
  · simp only [answer] at h1
    rw [hm', hd, next_index] at h1
    simp at h1
  · simp only [answer] at h1
    rw [hm', hd, next_index] at h1
    simp only [Option.map_some, Option.some.injEq] at h1
    subst h1
    refine ⟨r', ?_, past ++ [.text l true], h3, ?_, dv, hv1, ?_⟩
    · simp only [Call.run] at h2
      cases hr : readline r l with
      | error e => rw [hr] at h2; cases h2
      | ok x =>
        obtain ⟨v', r''⟩ := x
        rw [hr] at h2
        simp only [bind, Except.bind, pure, Except.pure, Except.ok.injEq, Prod.mk.injEq, Answer.text.injEq] at h2
        rw [h2.1, h2.2]
    · intro l' hl'
      obtain ⟨don', hd', hmm⟩ := ht l' hl'
      rw [movedText_snoc]
      by_cases e : l = l'
      · subst e
        refine ⟨don ++ [v], by rw [hd]; simp, fun _ => ?_⟩
        rw [if_pos rfl, hm']
        simp
      · rw [occ_cons, if_neg e] at hd'
        refine ⟨don', hd', fun hne => ?_⟩
        rw [if_neg (by simpa using e), hmm hne]
        rfl
    · intro hne
      rw [movedVec_snoc, if_neg (by simp), hv2 hne]
      rfl

/-- A text that is not there is not read. -/
theorem pos_none {ls : List Line} (hk : KindsApart ls) {r : Readable} {l : Str} {T : List (Str × Str)} {V : List (List Str)}
    (hl : l ∈ geoLabels) (h0 : occ (texts ls) l = []) (h : Pos ls r T V) :
    readline r (l ++ ['=']) = .error .thrown := by
  obtain ⟨past, ha, ht, -⟩ := h
  obtain ⟨g1, g2, g3⟩ := geo_ok l hl
  rw [readline_equal r l g1 g3]
  rcases call_step ls hk past r ha (.text l true) ⟨g1, g2, g3⟩ with ⟨h1, h2, h3⟩ | ⟨a, r', h1, h2, h3⟩
  · simp only [Call.run] at h2
    cases hr : readline r l with
    | error e =>
      rw [hr] at h2
      cases h2
      rfl
    | ok x => rw [hr] at h2; cases h2
  · simp [answer, h0] at h1

theorem pos_value {β : Type} {conv : Str → Out β} {ls : List Line} (hk : KindsApart ls) {r : Readable} {l v : Str} {x : β}
    {T : List (Str × Str)} {V : List (List Str)} (hl : l ∈ geoLabels) (hx : conv v = .ok x) (h : Pos ls r ((l, v) :: T) V) :
    ∃ r', readValue conv r (l ++ ['=']) = .ok (x, r') ∧ Pos ls r' T V := by
  obtain ⟨r', h1, h2⟩ := pos_text hk hl h
  exact ⟨r', by rw [readValue_spec, h1]; simp only [bind, Except.bind, hx]; rfl, h2⟩

theorem asInt_digits (n : Nat) (h : n < 2 ^ 31) : asInt (Nat.toDigits 10 n) = .ok (n : Int) := by
  unfold asInt
  rw [Labels.atoi_digits n (by omega)]
  rfl

theorem pos_tryInt {ls : List Line} (hk : KindsApart ls) {r : Readable} {l : Str} {x : Option Int}
    {T : List (Str × Str)} {V : List (List Str)} (hl : l ∈ geoLabels) (hx : ∀ y ∈ x, -2147483648 ≤ y ∧ y ≤ 2147483647)
    (h0 : x = none → occ (texts ls) l = []) (h : Pos ls r (line? l decimal x ++ T) V) :
    ∃ r', tryInt r (l ++ ['=']) = .ok (x, r') ∧ Pos ls r' T V := by
  unfold tryInt
  cases x with
  | none =>
    refine ⟨r, ?_, h⟩
    rw [readValue_spec, pos_none hk hl (h0 rfl) h]
    rfl
  | some x =>
    obtain ⟨h1, h2⟩ := hx x rfl
    obtain ⟨r', e, h'⟩ := pos_value (conv := asInt) hk hl (asInt_spec x h1 h2) h
    exact ⟨r', by rw [e], h'⟩

theorem pos_tryNat {ls : List Line} (hk : KindsApart ls) {r : Readable} {l : Str} {x : Option Nat}
    {T : List (Str × Str)} {V : List (List Str)} (hl : l ∈ geoLabels) (hx : ∀ y ∈ x, y < 2 ^ 31)
    (h0 : x = none → occ (texts ls) l = []) (h : Pos ls r (line? l (Nat.toDigits 10) x ++ T) V) :
    ∃ r', tryInt r (l ++ ['=']) = .ok (x.map Int.ofNat, r') ∧ Pos ls r' T V := by
  unfold tryInt
  cases x with
  | none =>
    refine ⟨r, ?_, h⟩
    rw [readValue_spec, pos_none hk hl (h0 rfl) h]
    rfl
  | some x =>
    obtain ⟨r', e, h'⟩ := pos_value (conv := asInt) hk hl (asInt_digits x (hx x rfl)) h
    exact ⟨r', by rw [e]; rfl, h'⟩

theorem pos_trySize {ls : List Line} (hk : KindsApart ls) {r : Readable} {l : Str} {x : Option Nat}
    {T : List (Str × Str)} {V : List (List Str)} (hl : l ∈ geoLabels) (hx : ∀ y ∈ x, y < 2 ^ 31)
    (h0 : x = none → occ (texts ls) l = []) (h : Pos ls r (line? l (Nat.toDigits 10) x ++ T) V) :
    ∃ r', trySize r (l ++ ['=']) = .ok (x, r') ∧ Pos ls r' T V := by
  unfold trySize
  cases x with
  | none =>
    refine ⟨r, ?_, h⟩
    rw [readValue_spec, pos_none hk hl (h0 rfl) h]
    rfl
  | some x =>
    obtain ⟨r', e, h'⟩ := pos_value (conv := asSize) hk hl (asSize_spec x (hx x rfl)) h
    exact ⟨r', by rw [e], h'⟩

theorem conn_ok : Call.Ok (.vec "Connectors".toList) := by
  refine ⟨?_, ?_, ?_⟩ <;> decide

theorem pos_moved {ls : List Line} {past : List Call} {r' : Readable} {T : List (Str × Str)} {c : List Str} {V : List (List Str)}
    (h3 : After ls (past ++ [.vec "Connectors".toList]) r')
    (ht : ∀ l ∈ geoLabels, ∃ don, occ (texts ls) l = don ++ occ T l ∧ (occ (texts ls) l ≠ [] → movedText past l = don.length))
    (don : List (List Str)) (hv : occ (vecs ls) "Connectors".toList = don ++ c :: V)
    (hm : movedVec past "Connectors".toList = don.length) : Pos ls r' T V := by
  refine ⟨_, h3, ?_, don ++ [c], by rw [hv]; simp, fun _ => ?_⟩
  · intro l hl
    obtain ⟨d, h1, h2⟩ := ht l hl
    refine ⟨d, h1, fun hne => ?_⟩
    rw [movedText_snoc, if_neg (by simp), h2 hne]
    rfl
  · rw [movedVec_snoc, if_pos rfl, hm]
    simp

/-- The next list is read, as numbers. -/
theorem pos_vector {ls : List Line} (hk : KindsApart ls) {r : Readable} {T : List (Str × Str)} {c : List Str} {V : List (List Str)}
    (h : Pos ls r T (c :: V)) : ∃ r', readVector r "Connectors".toList = .ok (c.drop 1, r') ∧ Pos ls r' T V := by
  obtain ⟨past, ha, ht, don, hv1, hv2⟩ := h
  have hm := hv2 (by rw [hv1]; simp)
  rcases call_step ls hk past r ha (.vec "Connectors".toList) conn_ok with ⟨h1, -, -⟩ | ⟨a, r', h1, h2, h3⟩
  · simp only [answer] at h1
    rw [hm, hv1, next_index] at h1
    simp at h1
  · simp only [answer] at h1
    rw [hm, hv1, next_index] at h1
    simp only [Option.map_some, Option.some.injEq] at h1
    subst h1
    refine ⟨r', ?_, pos_moved h3 ht don hv1 hm⟩
    simp only [Call.run] at h2
    cases hr : readVector r "Connectors".toList with
    | error e => rw [hr] at h2; cases h2
    | ok x =>
      obtain ⟨v', r''⟩ := x
      rw [hr] at h2
      simp only [bind, Except.bind, pure, Except.pure, Except.ok.injEq, Prod.mk.injEq, Answer.vec.injEq] at h2
      rw [h2.1, h2.2]

/-- The next list is read, as a matrix. -/
theorem pos_matrix {β : Type} {conv : List Str → Out β} {ls : List Line} (hk : KindsApart ls) {r : Readable} {T : List (Str × Str)}
    {c : List Str} {V : List (List Str)} {m : β} (hc : conv c = .ok m) (h : Pos ls r T (c :: V)) :
    ∃ r', readMatrix conv r "Connectors".toList = .ok (m, r') ∧ Pos ls r' T V := by
  obtain ⟨past, ha, ht, don, hv1, hv2⟩ := h
  have hm := hv2 (by rw [hv1]; simp)
  obtain ⟨r', h1, h2⟩ := readMatrix_after conv ls hk past r ha "Connectors".toList conn_ok c (by rw [hm, hv1, next_index])
  refine ⟨r', ?_, pos_moved h1 ht don hv1 hm⟩
  rw [h2, hc]
  rfl

variable {α : Type}

theorem pos_matrices {mat : List Str → Out (Mat α)} {matrix : List Str → Mat α} {orbs : Nat} {ls : List Line} (hk : KindsApart ls)
    {T : List (Str × Str)} {V : List (List Str)} (c : List (List Str))
    (hc : ∀ s ∈ c, mat s = .ok (matrix s) ∧ Shape (matrix s) orbs orbs) (ms : List (Mat α)) (r : Readable) (h : Pos ls r T (c ++ V)) :
    ∃ r', readMatrices mat orbs c.length ms r = .ok (ms ++ c.map matrix, r') ∧ Pos ls r' T V := by
  induction c generalizing ms r with
  | nil => exact ⟨r, by simp [readMatrices], h⟩
  | cons s c ih =>
    obtain ⟨e, hs⟩ := hc s List.mem_cons_self
    obtain ⟨r1, h1, p1⟩ := pos_matrix hk e h
    obtain ⟨r2, h2, p2⟩ := ih (fun s hs => hc s (List.mem_cons_of_mem _ hs)) (ms ++ [matrix s]) r1 p1
    refine ⟨r2, ?_, p2⟩
    rw [List.length_cons, readMatrices, h1]
    simp only [bind, Except.bind]
    rw [if_neg (by rw [hs.1, hs.2]; simp), h2]
    simp

/-- **C83** A matrix of another size than orbitals times orbitals is refused with an exception, after any number of right ones. -/
theorem shape_refused {num : Str → Out α} {mat : List Str → Out (Mat α)} {matrix : List Str → Mat α} {orbs : Nat} (h1 : 1 < orbs)
    {ls : List Line} (hk : KindsApart ls) {T : List (Str × Str)} {V : List (List Str)} (c : List (List Str))
    (hc : ∀ s ∈ c, mat s = .ok (matrix s) ∧ Shape (matrix s) orbs orbs) (s : List Str) (m : Mat α) (hs : mat s = .ok m)
    (hm : ¬ (m.nrow = orbs ∧ m.ncol = orbs)) (b : Base) (d n : Nat) (const : Bool)
    (hb : (if const then some 1 else b.getVectorSize d) = some n) (hn : c.length < max 1 n) (r : Readable) (h : Pos ls r T (c ++ s :: V)) :
    readDirection num mat b const orbs d r = throwOut := by
  have key : ∀ (c : List (List Str)) (_ : ∀ s ∈ c, mat s = .ok (matrix s) ∧ Shape (matrix s) orbs orbs) (k : Nat) (_ : c.length < k)
      (ms : List (Mat α)) (r : Readable) (_ : Pos ls r T (c ++ s :: V)), readMatrices mat orbs k ms r = throwOut := by
    intro c
    induction c with
    | nil =>
      intro _ k hk' ms r h
      obtain ⟨k, rfl⟩ : ∃ j, k = j + 1 := ⟨k - 1, by simp at hk'; omega⟩
      obtain ⟨r1, e1, _⟩ := pos_matrix hk hs h
      rw [readMatrices, e1]
      simp only [bind, Except.bind]
      rw [if_pos]
      by_contra hne
      exact hm ⟨by omega, by omega⟩
    | cons s' c ih =>
      intro hc k hk' ms r h
      obtain ⟨k, rfl⟩ : ∃ j, k = j + 1 := ⟨k - 1, by simp at hk'; omega⟩
      obtain ⟨e, hs'⟩ := hc s' List.mem_cons_self
      obtain ⟨r1, e1, p1⟩ := pos_matrix hk e h
      rw [readMatrices, e1]
      simp only [bind, Except.bind]
      rw [if_neg (by rw [hs'.1, hs'.2]; simp)]
      exact ih (fun s hs => hc s (List.mem_cons_of_mem _ hs)) k (by simpa using hk') _ r1 p1
  unfold readDirection
  rw [hb]
  simp only
  rw [if_pos (show orbs > 1 from h1), key c hc _ (by split <;> omega) [] r h]
  rfl

/-- The data of a direction. -/
def dirOf (value : Str → α) (matrix : List Str → Mat α) (orbs : Nat) (c : List (List Str)) : DirData α :=
  if orbs = 1 then ⟨((c.headD []).drop 1).map value, []⟩ else ⟨[], c.map matrix⟩

theorem mapM_num {num : Str → Out α} {value : Str → α} (xs : List Str) (h : ∀ x ∈ xs, num x = .ok (value x)) :
    xs.mapM num = .ok (xs.map value) := by
  induction xs with
  | nil => rfl
  | cons x xs ih =>
    rw [List.mapM_cons, h x List.mem_cons_self, ih fun y hy => h y (List.mem_cons_of_mem _ hy)]
    rfl

theorem pos_direction {num : Str → Out α} {value : Str → α} {mat : List Str → Out (Mat α)} {matrix : List Str → Mat α} {N : Nat}
    {t : TermSpec} (ht : t.Ok num value mat matrix N) {ls : List Line} (hk : KindsApart ls) {T : List (Str × Str)} {V : List (List Str)}
    (d : Nat) (c : List (List Str)) (hc : t.connectors[d]? = some c) (r : Readable) (h : Pos ls r T (c ++ V)) :
    ∃ r', readDirection num mat (t.kind.base N) t.const t.orbitals d r = .ok (dirOf value matrix t.orbitals c, r') ∧ Pos ls r' T V := by
  have ho := ht.dof.1
  unfold readDirection
  by_cases h1 : t.orbitals = 1
  · obtain ⟨n, xs, rfl, hs, hn⟩ := ht.numbers h1 d c hc
    unfold TermSpec.size at hs
    rw [hs]
    obtain ⟨r', e, p⟩ := pos_vector hk h
    refine ⟨r', ?_, p⟩
    simp only []
    rw [if_neg (show ¬ t.orbitals > 1 by omega), e]
    simp only [bind, Except.bind, List.drop_succ_cons, List.drop_zero, mapM_num xs hn]
    rw [if_neg (by simp)]
    unfold dirOf
    rw [if_pos h1]
    rfl
  · obtain ⟨n, hs, hl, hm⟩ := ht.matrices h1 d c hc
    unfold TermSpec.size at hs
    rw [hs]
    obtain ⟨r', e, p⟩ := pos_matrices hk c hm [] r h
    refine ⟨r', ?_, p⟩
    simp only []
    rw [if_pos (show t.orbitals > 1 by omega), show (if n = 0 then 1 else n) = c.length by rw [hl]; split <;> omega, e]
    unfold dirOf
    rw [if_neg h1]
    rfl

theorem pos_directions {num : Str → Out α} {value : Str → α} {mat : List Str → Out (Mat α)} {matrix : List Str → Mat α} {N : Nat}
    {t : TermSpec} (ht : t.Ok num value mat matrix N) {ls : List Line} (hk : KindsApart ls) {T : List (Str × Str)} {V : List (List Str)}
    (cs : List (List (List Str))) (pre : List (List (List Str))) (hc : t.connectors = pre ++ cs) (r : Readable)
    (h : Pos ls r T (cs.flatten ++ V)) :
    ∃ r', readDirections num mat (t.kind.base N) t.const t.orbitals cs.length (pre.map (dirOf value matrix t.orbitals)) r =
      .ok (t.connectors.map (dirOf value matrix t.orbitals), r') ∧ Pos ls r' T V := by
  induction cs generalizing pre r with
  | nil => exact ⟨r, by rw [hc]; simp [readDirections], h⟩
  | cons c cs ih =>
    rw [List.flatten_cons, List.append_assoc] at h
    obtain ⟨r1, e1, p1⟩ := pos_direction ht hk pre.length c (by rw [hc]; simp) r h
    obtain ⟨r2, e2, p2⟩ := ih (pre ++ [c]) (by rw [hc]; simp) r1 p1
    refine ⟨r2, ?_, p2⟩
    rw [List.length_cons, readDirections, List.length_map, e1]
    simp only [bind, Except.bind]
    rw [← e2]
    simp

theorem mem_sites : "TotalNumberOfSites".toList ∈ geoLabels := by decide +kernel
theorem lab_sites : "TotalNumberOfSites=".toList = "TotalNumberOfSites".toList ++ ['='] := by decide +kernel
theorem mem_terms : "NumberOfTerms".toList ∈ geoLabels := by decide +kernel
theorem lab_terms : "NumberOfTerms=".toList = "NumberOfTerms".toList ++ ['='] := by decide +kernel
theorem mem_dof : "DegreesOfFreedom".toList ∈ geoLabels := by decide +kernel
theorem lab_dof : "DegreesOfFreedom=".toList = "DegreesOfFreedom".toList ++ ['='] := by decide +kernel
theorem mem_kind : "GeometryKind".toList ∈ geoLabels := by decide +kernel
theorem lab_kind : "GeometryKind=".toList = "GeometryKind".toList ++ ['='] := by decide +kernel
theorem mem_options : "GeometryOptions".toList ∈ geoLabels := by decide +kernel
theorem lab_options : "GeometryOptions=".toList = "GeometryOptions".toList ++ ['='] := by decide +kernel
theorem mem_px : "IsPeriodicX".toList ∈ geoLabels := by decide +kernel
theorem lab_px : "IsPeriodicX=".toList = "IsPeriodicX".toList ++ ['='] := by decide +kernel
theorem mem_py : "IsPeriodicY".toList ∈ geoLabels := by decide +kernel
theorem lab_py : "IsPeriodicY=".toList = "IsPeriodicY".toList ++ ['='] := by decide +kernel
theorem mem_distance : "LongChainDistance".toList ∈ geoLabels := by decide +kernel
theorem lab_distance : "LongChainDistance=".toList = "LongChainDistance".toList ++ ['='] := by decide +kernel
theorem mem_leg : "LadderLeg".toList ∈ geoLabels := by decide +kernel
theorem lab_leg : "LadderLeg=".toList = "LadderLeg".toList ++ ['='] := by decide +kernel
theorem mem_sign : "SignChange".toList ∈ geoLabels := by decide +kernel
theorem lab_sign : "SignChange=".toList = "SignChange".toList ++ ['='] := by decide +kernel
theorem mem_bath : "BathSitesPerSite".toList ∈ geoLabels := by decide +kernel
theorem lab_bath : "BathSitesPerSite=".toList = "BathSitesPerSite".toList ++ ['='] := by decide +kernel
theorem mem_ly : "HoneycombLy".toList ∈ geoLabels := by decide +kernel
theorem lab_ly : "HoneycombLy=".toList = "HoneycombLy".toList ++ ['='] := by decide +kernel
theorem mem_modifier : "GeometryValueModifier".toList ∈ geoLabels := by decide +kernel
theorem lab_modifier : "GeometryValueModifier=".toList = "GeometryValueModifier".toList ++ ['='] := by decide +kernel

theorem bind_ok {β γ : Type} {x : Out β} {a : β} (h : x = .ok a) (f : β → Out γ) : (x >>= f) = f a := by
  rw [h]
  rfl

theorem kind_chain (junk : Bool) (N : Nat) (r : Readable) : readKind junk "chain".toList N r = (do
    let (px, r) ← tryInt r "IsPeriodicX=".toList
    let (d, r) ← tryInt r "LongChainDistance=".toList
    return (some (chainBase (LongChain.ctor N px (d.map fun d => (d % 2 ^ 64).toNat))), r)) := by
  unfold readKind
  rw [if_pos (.inl rfl)]

theorem kind_ladder (junk : Bool) (N : Nat) (r : Readable) : readKind junk "ladder".toList N r = (do
    let (g, r) ← readLadder junk N r
    return (some (ladderBase g), r)) := by
  unfold readKind
  rw [if_neg (by decide), if_neg (by decide), if_pos (by rfl)]

theorem kind_star (junk : Bool) (N : Nat) (r : Readable) : readKind junk "star".toList N r = .ok (some (starBase N), r) := by
  unfold readKind
  rw [if_neg (by decide), if_neg (by decide), if_neg (by decide), if_neg (by decide), if_neg (by decide), if_neg (by decide),
    if_pos (by rfl)]
  rfl

theorem kind_ktwo (junk : Bool) (N : Nat) (r : Readable) : readKind junk "ktwoniffour".toList N r = (do
    let (sc, r) ← readValue asInt r "SignChange=".toList
    return (some (ktwoBase N sc), r)) := by
  unfold readKind
  rw [if_neg (by decide), if_neg (by decide), if_neg (by decide), if_neg (by decide), if_neg (by decide), if_pos (by rfl)]

theorem kind_ladderx (junk : Bool) (N : Nat) (r : Readable) : readKind junk "ladderx".toList N r = (do
    let (g, r) ← readLadder junk N r
    return (some (ladderxBase ⟨g⟩), r)) := by
  unfold readKind
  rw [if_neg (by decide), if_neg (by decide), if_neg (by decide), if_pos (by rfl)]

theorem kind_bath (junk : Bool) (N : Nat) (r : Readable) : readKind junk "ladderbath".toList N r = (do
    let (n, r) ← readValue asSize r "BathSitesPerSite=".toList
    let (g, r) ← readLadder junk (N / (1 + n)) r
    return (some (bathBase ⟨N, n, N / (1 + n), g⟩), r)) := by
  unfold readKind
  rw [if_neg (by decide), if_neg (by decide), if_neg (by decide), if_neg (by decide), if_pos (by rfl)]

theorem kind_honeycomb (junk : Bool) (N : Nat) (r : Readable) : readKind junk "Honeycomb".toList N r = (do
    let (ly, r) ← readValue asSize r "HoneycombLy=".toList
    let (py, r) ← readValue asInt r "IsPeriodicY=".toList
    let (px, r) ← tryInt r "IsPeriodicX=".toList
    match Honeycomb.ctor N (some ly) (some py) px with
    | none => throwOut
    | some g => return (some (honeyBase g), r)) := by
  unfold readKind
  rw [if_neg (by decide), if_neg (by decide), if_neg (by decide), if_neg (by decide), if_neg (by decide), if_neg (by decide),
    if_neg (by decide), if_neg (by decide), if_pos (by rfl)]
  rfl

theorem chain_ctor (N : Nat) (px : Option Int) (d : Option Nat) (h : ∀ x ∈ d, x < 2 ^ 31) :
    LongChain.ctor N px ((d.map Int.ofNat).map fun d => (d % 2 ^ 64).toNat) = ⟨N, on px, d.getD 1⟩ := by
  have e : (d.map Int.ofNat).map (fun d => (d % 2 ^ 64).toNat) = d := by
    cases d with
    | none => rfl
    | some d =>
      have := h d rfl
      rw [Option.map_some, Option.map_some, show (Int.ofNat d) = (d : Int) from rfl, Int.emod_eq_of_lt (by omega) (by omega)]
      rfl
  rw [e]
  cases px <;> rfl

theorem pos_chain {junk : Bool} {N : Nat} {px : Option Int} {d : Option Nat} (hok : (KindSpec.chain px d).Ok N) {ls : List Line} (hk : KindsApart ls)
    (hab : ∀ l ∈ (KindSpec.chain px d).absent, occ (texts ls) l = []) {T : List (Str × Str)} {V : List (List Str)} (r : Readable)
    (h : Pos ls r ((KindSpec.chain px d).texts ++ T) V) :
    ∃ r', readKind junk (KindSpec.chain px d).name N r = .ok (some ((KindSpec.chain px d).base N), r') ∧ Pos ls r' T V := by
  rw [KindSpec.Ok] at hok
  obtain ⟨h1, h2⟩ := hok
  rw [KindSpec.texts, List.append_assoc] at h
  obtain ⟨r1, e1, p1⟩ := pos_tryInt hk (l := "IsPeriodicX".toList) mem_px h1
    (fun e => hab _ (by rw [KindSpec.absent, if_pos e]; exact List.mem_append_left _ (List.mem_singleton.2 rfl))) h
  obtain ⟨r2, e2, p2⟩ := pos_tryNat hk (l := "LongChainDistance".toList) mem_distance h2
    (fun e => hab _ (by rw [KindSpec.absent, if_pos e]; exact List.mem_append_right _ (List.mem_singleton.2 rfl))) p1
  refine ⟨r2, ?_, p2⟩
  have q1 : tryInt r "IsPeriodicX=".toList = .ok (px, r1) := by
    rw [lab_px]
    exact e1
  have q2 : tryInt r1 "LongChainDistance=".toList = .ok (d.map Int.ofNat, r2) := by
    rw [lab_distance]
    exact e2
  have q3 : chainBase (LongChain.ctor N px ((d.map Int.ofNat).map fun d => (d % 2 ^ 64).toNat)) = (KindSpec.chain px d).base N := by
    rw [chain_ctor N px d h2, KindSpec.base]
  refine (kind_chain junk N r).trans ((bind_ok q1 _).trans ((bind_ok q2 _).trans ?_))
  rw [← q3]
  rfl

theorem pos_readLadder {junk : Bool} {N : Nat} {leg : Nat} {px py : Option Int} (hok : LadderOk N leg px py) {ls : List Line} (hk : KindsApart ls)
    (hab : ∀ l ∈ ladderAbsent px py, occ (texts ls) l = []) {T : List (Str × Str)} {V : List (List Str)} (r : Readable)
    (h : Pos ls r (ladderTexts leg px py ++ T) V) :
    ∃ r', readLadder junk N r = .ok (ladderOf N leg px py, r') ∧ Pos ls r' T V := by
  obtain ⟨h1, h2, h3, h4, h5, h6⟩ := hok
  rw [ladderTexts, List.cons_append, List.append_assoc] at h
  obtain ⟨r0, e0, p0⟩ := pos_value (conv := asSize) hk (l := "LadderLeg".toList) mem_leg (asSize_spec leg h4) h
  obtain ⟨r1, e1, p1⟩ := pos_tryInt hk (l := "IsPeriodicX".toList) mem_px h1
    (fun e => hab _ (by rw [ladderAbsent, if_pos e]; exact List.mem_append_left _ (List.mem_singleton.2 rfl))) p0
  obtain ⟨r2, e2, p2⟩ := pos_tryInt hk (l := "IsPeriodicY".toList) mem_py h2
    (fun e => hab _ (by rw [ladderAbsent, if_pos e]; exact List.mem_append_right _ (List.mem_singleton.2 rfl))) p1
  refine ⟨r2, ?_, p2⟩
  have q0 : readValue asSize r "LadderLeg=".toList = .ok (leg, r0) := by
    rw [lab_leg]
    exact e0
  have q1 : tryInt r0 "IsPeriodicX=".toList = .ok (px, r1) := by
    rw [lab_px]
    exact e1
  have q2 : tryInt r1 "IsPeriodicY=".toList = .ok (py, r2) := by
    rw [lab_py]
    exact e2
  have hct : Ladder.ctor N leg px py junk = some (some (ladderOf N leg px py)) := by
    unfold Ladder.ctor ladderOf
    cases py with
    | none =>
      have hl : leg = 2 := by
        by_contra hne
        exact h6 hne rfl
      subst hl
      simp only [show ¬ (2 > 2) by omega, if_false]
      rw [if_neg (by omega), if_neg (by rw [Nat.mod_eq_zero_of_dvd h5]; simp)]
      cases px <;> simp [on]
    | some y =>
      simp only []
      rw [if_neg (by omega), if_neg (by rw [Nat.mod_eq_zero_of_dvd h5]; simp)]
      cases px <;> simp [on]
  unfold readLadder
  refine (bind_ok q0 _).trans ((bind_ok q1 _).trans ((bind_ok q2 _).trans ?_))
  simp only [hct]
  rfl

/-- What a ladder refuses: more than two legs without `IsPeriodicY=`, or a number of sites that is not a multiple of the legs. -/
def LadderBad (N leg : Nat) (py : Option Int) : Prop := 0 < leg ∧ (2 < leg ∧ py = none ∨ ¬ leg ∣ N)

theorem ladder_ctor_bad {N leg : Nat} {px py : Option Int} (h : LadderBad N leg py) (junk : Bool) :
    Ladder.ctor N leg px py junk = some none := by
  obtain ⟨h0, h⟩ := h
  have hd : ¬ leg ∣ N → N % leg ≠ 0 := fun h h' => h (Nat.dvd_of_mod_eq_zero h')
  unfold Ladder.ctor
  cases py with
  | none =>
    by_cases h2 : leg > 2
    · simp [h2]
    · rcases h with h | h
      · omega
      · simp only [if_neg h2]
        rw [if_neg (by omega), if_pos (hd h)]
  | some y =>
    rcases h with h | h
    · cases h.2
    · simp only []
      rw [if_neg (by omega), if_pos (hd h)]

/-- **C83** A ladder with more than two legs without the line `IsPeriodicY=`, and one whose number of sites is not a multiple of its
legs, is refused. -/
theorem ladder_refused {junk : Bool} {N : Nat} {leg : Nat} {px py : Option Int} (hbad : LadderBad N leg py)
    (h1 : ∀ x ∈ px, -2147483648 ≤ x ∧ x ≤ 2147483647) (h2 : ∀ x ∈ py, -2147483648 ≤ x ∧ x ≤ 2147483647) (h4 : leg < 2 ^ 31)
    {ls : List Line} (hk : KindsApart ls)
    (hab : ∀ l ∈ ladderAbsent px py, occ (texts ls) l = []) {T : List (Str × Str)} {V : List (List Str)} (r : Readable)
    (h : Pos ls r (ladderTexts leg px py ++ T) V) : readKind junk "ladder".toList N r = throwOut := by
  rw [ladderTexts, List.cons_append, List.append_assoc] at h
  obtain ⟨r0, e0, p0⟩ := pos_value (conv := asSize) hk (l := "LadderLeg".toList) mem_leg (asSize_spec leg h4) h
  obtain ⟨r1, e1, p1⟩ := pos_tryInt hk (l := "IsPeriodicX".toList) mem_px h1
    (fun e => hab _ (by rw [ladderAbsent, if_pos e]; exact List.mem_append_left _ (List.mem_singleton.2 rfl))) p0
  obtain ⟨r2, e2, p2⟩ := pos_tryInt hk (l := "IsPeriodicY".toList) mem_py h2
    (fun e => hab _ (by rw [ladderAbsent, if_pos e]; exact List.mem_append_right _ (List.mem_singleton.2 rfl))) p1
  have q0 : readValue asSize r "LadderLeg=".toList = .ok (leg, r0) := by
    rw [lab_leg]
    exact e0
  have q1 : tryInt r0 "IsPeriodicX=".toList = .ok (px, r1) := by
    rw [lab_px]
    exact e1
  have q2 : tryInt r1 "IsPeriodicY=".toList = .ok (py, r2) := by
    rw [lab_py]
    exact e2
  have : readLadder junk N r = throwOut := by
    unfold readLadder
    refine (bind_ok q0 _).trans ((bind_ok q1 _).trans ((bind_ok q2 _).trans ?_))
    simp only [ladder_ctor_bad hbad]
  rw [kind_ladder, this]
  rfl

theorem pos_ladder {junk : Bool} {N : Nat} {leg : Nat} {px py : Option Int} (hok : LadderOk N leg px py) {ls : List Line} (hk : KindsApart ls)
    (hab : ∀ l ∈ ladderAbsent px py, occ (texts ls) l = []) {T : List (Str × Str)} {V : List (List Str)} (r : Readable)
    (h : Pos ls r (ladderTexts leg px py ++ T) V) :
    ∃ r', readKind junk (KindSpec.ladder leg px py).name N r = .ok (some ((KindSpec.ladder leg px py).base N), r') ∧ Pos ls r' T V := by
  obtain ⟨r', e, p⟩ := pos_readLadder (junk := junk) hok hk hab r h
  exact ⟨r', (kind_ladder junk N r).trans (bind_ok e _), p⟩

theorem pos_ladderx {junk : Bool} {N : Nat} {leg : Nat} {px py : Option Int} (hok : LadderOk N leg px py) {ls : List Line} (hk : KindsApart ls)
    (hab : ∀ l ∈ ladderAbsent px py, occ (texts ls) l = []) {T : List (Str × Str)} {V : List (List Str)} (r : Readable)
    (h : Pos ls r (ladderTexts leg px py ++ T) V) :
    ∃ r', readKind junk (KindSpec.ladderx leg px py).name N r = .ok (some ((KindSpec.ladderx leg px py).base N), r') ∧ Pos ls r' T V := by
  obtain ⟨r', e, p⟩ := pos_readLadder (junk := junk) hok hk hab r h
  exact ⟨r', (kind_ladderx junk N r).trans (bind_ok e _), p⟩

theorem pos_bath {junk : Bool} {N : Nat} {n leg : Nat} {px py : Option Int} (hn : n < 2 ^ 31) (hok : LadderOk (N / (1 + n)) leg px py)
    {ls : List Line} (hk : KindsApart ls)
    (hab : ∀ l ∈ ladderAbsent px py, occ (texts ls) l = []) {T : List (Str × Str)} {V : List (List Str)} (r : Readable)
    (h : Pos ls r (("BathSitesPerSite".toList, Nat.toDigits 10 n) :: (ladderTexts leg px py ++ T)) V) :
    ∃ r', readKind junk (KindSpec.bath n leg px py).name N r = .ok (some ((KindSpec.bath n leg px py).base N), r') ∧ Pos ls r' T V := by
  obtain ⟨r0, e0, p0⟩ := pos_value (conv := asSize) hk (l := "BathSitesPerSite".toList) mem_bath (asSize_spec n hn) h
  obtain ⟨r', e, p⟩ := pos_readLadder (junk := junk) hok hk hab r0 p0
  have q0 : readValue asSize r "BathSitesPerSite=".toList = .ok (n, r0) := by
    rw [lab_bath]
    exact e0
  exact ⟨r', (kind_bath junk N r).trans ((bind_ok q0 _).trans (bind_ok e _)), p⟩

theorem pos_honeycomb {junk : Bool} {N : Nat} {ly : Nat} {py : Int} {px : Option Int} (hl : ly < 2 ^ 31)
    (hy : -2147483648 ≤ py ∧ py ≤ 2147483647) (hx : ∀ x ∈ px, -2147483648 ≤ x ∧ x ≤ 2147483647) {ls : List Line} (hk : KindsApart ls)
    (hab : px = none → occ (texts ls) "IsPeriodicX".toList = []) {T : List (Str × Str)} {V : List (List Str)} (r : Readable)
    (h : Pos ls r (("HoneycombLy".toList, Nat.toDigits 10 ly) :: ("IsPeriodicY".toList, decimal py) ::
      (line? "IsPeriodicX".toList decimal px ++ T)) V) :
    ∃ r', readKind junk (KindSpec.honeycomb ly py px).name N r = .ok (some ((KindSpec.honeycomb ly py px).base N), r') ∧ Pos ls r' T V := by
  obtain ⟨r0, e0, p0⟩ := pos_value (conv := asSize) hk (l := "HoneycombLy".toList) mem_ly (asSize_spec ly hl) h
  obtain ⟨r1, e1, p1⟩ := pos_value (conv := asInt) hk (l := "IsPeriodicY".toList) mem_py (asInt_spec py hy.1 hy.2) p0
  obtain ⟨r2, e2, p2⟩ := pos_tryInt hk (l := "IsPeriodicX".toList) mem_px hx hab p1
  have q0 : readValue asSize r "HoneycombLy=".toList = .ok (ly, r0) := by
    rw [lab_ly]
    exact e0
  have q1 : readValue asInt r0 "IsPeriodicY=".toList = .ok (py, r1) := by
    rw [lab_py]
    exact e1
  have q2 : tryInt r1 "IsPeriodicX=".toList = .ok (px, r2) := by
    rw [lab_px]
    exact e2
  have q3 : Honeycomb.ctor N (some ly) (some py) px = some ⟨N, ly, decide (0 < py), on px⟩ := by
    cases px <;> rfl
  refine ⟨r2, (kind_honeycomb junk N r).trans ((bind_ok q0 _).trans ((bind_ok q1 _).trans ((bind_ok q2 _).trans ?_))), p2⟩
  simp only [q3]
  rfl

theorem pos_ktwo {junk : Bool} {N : Nat} {sc : Int} (hok : (KindSpec.ktwo sc).Ok N) {ls : List Line} (hk : KindsApart ls)
    (hab : ∀ l ∈ (KindSpec.ktwo sc).absent, occ (texts ls) l = []) {T : List (Str × Str)} {V : List (List Str)} (r : Readable)
    (h : Pos ls r ((KindSpec.ktwo sc).texts ++ T) V) :
    ∃ r', readKind junk (KindSpec.ktwo sc).name N r = .ok (some ((KindSpec.ktwo sc).base N), r') ∧ Pos ls r' T V := by
  obtain ⟨r1, e1, p1⟩ := pos_value (conv := asInt) hk (l := "SignChange".toList) mem_sign (asInt_spec sc hok.1 hok.2) h
  refine ⟨r1, ?_, p1⟩
  have q1 : readValue asInt r "SignChange=".toList = .ok (sc, r1) := by
    rw [lab_sign]
    exact e1
  change readKind junk "ktwoniffour".toList N r = _
  rw [kind_ktwo, q1]
  rfl

theorem pos_kind {junk : Bool} {N : Nat} {k : KindSpec} (hok : k.Ok N) {ls : List Line} (hk : KindsApart ls)
    (hab : ∀ l ∈ k.absent, occ (texts ls) l = []) {T : List (Str × Str)} {V : List (List Str)} (r : Readable)
    (h : Pos ls r (k.texts ++ T) V) :
    ∃ r', readKind junk k.name N r = .ok (some (k.base N), r') ∧ Pos ls r' T V := by
  cases k with
  | chain px d => exact pos_chain hok hk hab r h
  | ladder leg px py => exact pos_ladder hok hk hab r h
  | star => exact ⟨r, kind_star junk N r, h⟩
  | ktwo sc => exact pos_ktwo hok hk hab r h
  | ladderx leg px py => exact pos_ladderx hok hk hab r h
  | bath n leg px py => exact pos_bath hok.1 hok.2 hk hab r h
  | honeycomb ly py px =>
    exact pos_honeycomb hok.1 hok.2.1 hok.2.2 hk (fun e => hab _ (by rw [KindSpec.absent, if_pos e]; exact List.mem_singleton.2 rfl)) r h

/-- The data of the directions is complete. -/
theorem data_ok {num : Str → Out α} {value : Str → α} {mat : List Str → Out (Mat α)} {matrix : List Str → Mat α} {N : Nat}
    {t : TermSpec} (ht : t.Ok num value mat matrix N) :
    DataOk (t.kind.base N) t.orbitals t.const (t.connectors.map (dirOf value matrix t.orbitals)) where
  len := by rw [List.length_map, ht.dirs]
  nums := by
    intro h1 d dd hd
    rw [List.getElem?_map, Option.map_eq_some_iff] at hd
    obtain ⟨c, hc, rfl⟩ := hd
    obtain ⟨n, xs, rfl, hs, -⟩ := ht.numbers h1 d c hc
    unfold dirOf
    rw [if_pos h1]
    simpa [TermSpec.size] using hs
  mats := by
    intro h1 d dd hd
    rw [List.getElem?_map, Option.map_eq_some_iff] at hd
    obtain ⟨c, hc, rfl⟩ := hd
    obtain ⟨n, hs, hl, hm⟩ := ht.matrices h1 d c hc
    unfold dirOf
    rw [if_neg h1]
    refine ⟨⟨n, hs, by rw [List.length_map, hl]⟩, ?_⟩
    intro m hm'
    rw [List.mem_map] at hm'
    obtain ⟨s, hs', rfl⟩ := hm'
    exact (hm s hs').2

/-- The term that is built. -/
def Built [Mul α] [Star α] [IntCast α] [Zero α] (value : Str → α) (matrix : List Str → Mat α) (N : Nat) (t : TermSpec) (x : Term α) : Prop :=
  x.orbitals = t.orbitals ∧ x.base = some (t.kind.base N) ∧ x.options = t.options ∧
    cacheValues (t.kind.base N) N t.orbitals t.const (t.connectors.map (dirOf value matrix t.orbitals)) = some x.cached

variable [CommRing α] [StarRing α]

theorem pos_term {junk : Bool} {num : Str → Out α} {value : Str → α} {mat : List Str → Out (Mat α)} {matrix : List Str → Mat α} {N : Nat}
    {t : TermSpec} (ht : t.Ok num value mat matrix N) (hg : Good (t.kind.base N) N t.orbitals t.const)
    {ls : List Line} (hk : KindsApart ls)
    (hab : ∀ l ∈ t.absent, occ (texts ls) l = []) (hmod : occ (texts ls) "GeometryValueModifier".toList = [])
    {T : List (Str × Str)} {V : List (List Str)} (r : Readable)
    (h : Pos ls r (t.texts ++ T) (t.connectors.flatten ++ V)) :
    ∃ x r', readTerm junk num mat N r = .ok (x, r') ∧ Built value matrix N t x ∧ Pos ls r' T V := by
  have hdof : ∀ y ∈ t.dof, y < 2 ^ 31 := by
    intro y hy
    have := ht.dof.2
    rw [TermSpec.orbitals, show t.dof = some y from hy] at this
    exact this
  rw [TermSpec.texts, List.append_assoc, List.cons_append, List.cons_append] at h
  obtain ⟨r1, e1, p1⟩ := pos_trySize hk (l := "DegreesOfFreedom".toList) mem_dof hdof
    (fun e => hab _ (by rw [TermSpec.absent, if_pos e]; exact List.mem_append_left _ (List.mem_singleton.2 rfl))) h
  obtain ⟨r2, e2, p2⟩ := pos_text hk mem_kind p1
  obtain ⟨r3, e3, p3⟩ := pos_text hk mem_options p2
  obtain ⟨r4, e4, p4⟩ := pos_kind (junk := junk) ht.kind hk (fun l hl => hab l (List.mem_append_right _ hl)) r3 p3
  obtain ⟨r5, e5, p5⟩ := pos_directions ht hk t.connectors [] rfl r4 p4
  have e6 := pos_none hk mem_modifier hmod p5
  obtain ⟨c, hc, -⟩ := cache_spec (t.kind.base N) N t.orbitals t.const hg _ (data_ok ht)
  refine ⟨⟨t.orbitals, some (t.kind.base N), t.options, c⟩, r5, ?_, ⟨rfl, rfl, rfl, hc⟩, p5⟩
  rw [← lab_dof] at e1
  rw [← lab_kind] at e2
  rw [← lab_options] at e3
  rw [← lab_modifier] at e6
  rw [ht.dirs, List.map_nil] at e5
  unfold readTerm
  refine (bind_ok e1 _).trans ?_
  have ho : ¬ (t.dof.getD 1 = 0) := by have := ht.dof.1; unfold TermSpec.orbitals at this; omega
  refine (if_neg ho).trans ?_
  refine (bind_ok e2 _).trans ((bind_ok e3 _).trans ((bind_ok e4 _).trans ((bind_ok e5 _).trans ?_)))
  simp only [e6]
  have hc' : cacheValues (t.kind.base N) N (t.dof.getD 1) (decide ("ConstantValues".toList <:+: t.options))
    (t.connectors.map (dirOf value matrix t.orbitals)) = some c := hc
  rw [hc']
  rfl

theorem pos_terms {junk : Bool} {num : Str → Out α} {value : Str → α} {mat : List Str → Out (Mat α)} {matrix : List Str → Mat α} {N : Nat}
    {ls : List Line} (hk : KindsApart ls) (hmod : occ (texts ls) "GeometryValueModifier".toList = [])
    (specs : List TermSpec) (ht : ∀ t ∈ specs, t.Ok num value mat matrix N)
    (hg : ∀ t ∈ specs, Good (t.kind.base N) N t.orbitals t.const)
    (hab : ∀ t ∈ specs, ∀ l ∈ t.absent, occ (texts ls) l = []) (xs : List (Term α)) (r : Readable)
    (h : Pos ls r (specs.flatMap TermSpec.texts) (specs.flatMap fun t => t.connectors.flatten)) :
    ∃ ys r', readTerms junk num mat N specs.length xs r = .ok (xs ++ ys, r') ∧ List.Forall₂ (Built value matrix N) specs ys := by
  induction specs generalizing xs r with
  | nil => exact ⟨[], r, by simp [readTerms], .nil⟩
  | cons t specs ih =>
    rw [List.flatMap_cons, List.flatMap_cons] at h
    obtain ⟨x, r1, e1, b1, p1⟩ := pos_term (junk := junk) (ht t List.mem_cons_self) (hg t List.mem_cons_self) hk
      (hab t List.mem_cons_self) hmod r h
    obtain ⟨ys, r2, e2, b2⟩ := ih (fun t h => ht t (List.mem_cons_of_mem _ h)) (fun t h => hg t (List.mem_cons_of_mem _ h))
      (fun t h => hab t (List.mem_cons_of_mem _ h)) (xs ++ [x]) r1 p1
    refine ⟨x :: ys, r2, ?_, .cons b1 b2⟩
    rw [List.length_cons, readTerms]
    refine (bind_ok e1 _).trans (e2.trans ?_)
    simp

theorem pos_geo {junk : Bool} {num : Str → Out α} {value : Str → α} {mat : List Str → Out (Mat α)} {matrix : List Str → Mat α} {N : Nat}
    {ls : List Line} (hk : KindsApart ls) {specs : List TermSpec} (hf : GeoFile ls N specs) (hN : N < 2 ^ 31) (hn : specs.length < 2 ^ 31)
    (ht : ∀ t ∈ specs, t.Ok num value mat matrix N) (hg : ∀ t ∈ specs, Good (t.kind.base N) N t.orbitals t.const)
    (r : Readable) (ha : After ls [] r) :
    ∃ ys r', readGeo junk num mat r = .ok (⟨N, ys⟩, r') ∧ List.Forall₂ (Built value matrix N) specs ys := by
  have p0 : Pos ls r (("TotalNumberOfSites".toList, Nat.toDigits 10 N) ::
      ("NumberOfTerms".toList, Nat.toDigits 10 specs.length) :: specs.flatMap TermSpec.texts)
      (specs.flatMap fun t => t.connectors.flatten) :=
    ⟨[], ha, fun l hl => ⟨[], hf.lines l hl, fun _ => rfl⟩, [], hf.lists, fun _ => rfl⟩
  obtain ⟨r1, e1, p1⟩ := pos_value (conv := asInt) hk mem_sites (asInt_digits N hN) p0
  obtain ⟨r2, e2, p2⟩ := pos_value (conv := asInt) hk mem_terms (asInt_digits _ hn) p1
  obtain ⟨ys, r3, e3, b3⟩ := pos_terms (junk := junk) hk hf.modifier specs ht hg hf.absent [] r2 p2
  refine ⟨ys, r3, ?_, b3⟩
  rw [← lab_sites] at e1
  rw [← lab_terms] at e2
  unfold readGeo
  refine (bind_ok e1 _).trans ((if_neg (by omega)).trans ?_)
  refine (bind_ok e2 _).trans ((if_neg (by omega)).trans ?_)
  exact bind_ok e3 _

/-- A star. -/
theorem star_good (N orbs : Nat) (hN : 0 < N) (const : Bool) : Good (starBase N) N orbs const where
  conn := by
    intro i j _ _
    refine ⟨Star.connected i j, rfl, ?_⟩
    simp only [starBase, Option.some.injEq]
    rw [Bool.eq_iff_iff, star_connected, star_connected]
    tauto
  irrefl := by intro i _; simp [starBase, Star.connected]
  dir := fun i j _ _ _ => ⟨0, Nat.one_pos, rfl, rfl⟩
  sign := fun i j _ _ _ => ⟨1, rfl, rfl⟩
  hdl := by
    intro hcst i j d hi hj h hdir
    simp only [starBase, Option.some.injEq] at h hdir ⊢
    subst hdir
    rw [star_connected] at h
    refine ⟨_, _, rfl, ?_, rfl, ?_⟩
    · unfold Star.handle; split_ifs <;> first | rfl | omega
    · unfold Star.handle
      rw [sub64_le (show 1 ≤ N by omega)]
      split_ifs
      · rw [sub64_le (show 1 ≤ j by omega)]; omega
      · rw [sub64_le (show 1 ≤ i by omega)]; omega
  idx := fun i e hi he => default_idx N orbs i e hi he
  inj := fun i e i' e' k _ _ he he' => default_inj orbs i e i' e' k he he'

/-- **C83** A well formed file gives the geometry it describes: the terms in the order of the file, each with its own lines and
its own lists.  With one orbital the value between two sites that are not connected is zero, between connected ones it is the
number at the place of the bond in the list of its direction, in both orders of the sites.  With more orbitals it is the
element of the matrix of the bond, with the sign of the bond, and the conjugate in the other order. -/
theorem geometry_file {junk : Bool} {num : Str → Out α} {value : Str → α} {mat : List Str → Out (Mat α)} {matrix : List Str → Mat α}
    {chk : Check} {ls : List Line} (h : FileOk chk ls) (hk : KindsApart ls) {N : Nat} {specs : List TermSpec} (hf : GeoFile ls N specs)
    (hN : N < 2 ^ 31) (hn : specs.length < 2 ^ 31) (ht : ∀ t ∈ specs, t.Ok num value mat matrix N)
    (hg : ∀ t ∈ specs, Good (t.kind.base N) N t.orbitals t.const) :
    ∃ r geo r', load chk (render ls) = .ok r ∧ readGeo junk num mat r = .ok (geo, r') ∧ geo.linSize = N ∧
      geo.terms.length = specs.length ∧
      ∀ k t, specs[k]? = some t →
        (∃ x, geo.terms[k]? = some x ∧ x.orbitals = t.orbitals ∧ x.options = t.options) ∧
        (t.orbitals = 1 → ∀ i j k1 k2, i < N → j < N → (t.kind.base N).index i 0 1 = some (some k1) →
          (t.kind.base N).index j 0 1 = some (some k2) →
          geo.value j 0 i 0 k = geo.value i 0 j 0 k ∧
          ((t.kind.base N).connected i j = some false → geo.value i 0 j 0 k = some 0) ∧
          ((t.kind.base N).connected i j = some true → ∃ s, t.number N i j = some s ∧ geo.value i 0 j 0 k = some (value s))) ∧
        (t.orbitals ≠ 1 → ∀ i j e e' k1 k2, j ≤ i → i < N → e < t.orbitals → e' < t.orbitals →
          (t.kind.base N).index i e t.orbitals = some (some k1) → (t.kind.base N).index j e' t.orbitals = some (some k2) →
          ((t.kind.base N).connected i j = some false → geo.value i e j e' k = some 0 ∧ geo.value j e' i e k = some 0) ∧
          ((t.kind.base N).connected i j = some true → ∃ s x, ∃ sign : Int, t.matrix N i j = some s ∧ (matrix s).get e e' = some x ∧
            (t.kind.base N).signChange i j = some sign ∧ geo.value i e j e' k = some (x * (sign : α)) ∧
            geo.value j e' i e k = some (star (x * (sign : α))))) := by
  obtain ⟨r, h1, h2⟩ := load_ok chk ls h
  obtain ⟨ys, r', e, b⟩ := pos_geo (junk := junk) hk hf hN hn ht hg r (after_load ls r h2)
  refine ⟨r, ⟨N, ys⟩, r', h1, e, rfl, b.length_eq.symm, ?_⟩
  intro k t hkt
  have htm : t ∈ specs := List.mem_of_getElem? hkt
  have hd := data_ok (ht t htm)
  have hgt := hg t htm
  have hlt : k < specs.length := (List.getElem?_eq_some_iff.1 hkt).1
  have hlt' : k < ys.length := by rw [← b.length_eq]; exact hlt
  have hy : ys[k]? = some ys[k] := List.getElem?_eq_getElem hlt'
  have hb : Built value matrix N t ys[k] := by
    have := List.forall₂_iff_get.1 b
    have := this.2 k hlt hlt'
    rw [List.getElem?_eq_getElem hlt] at hkt
    cases hkt
    exact this
  generalize ys[k] = y at hy hb
  obtain ⟨b1, b2, b3, b4⟩ := hb
  have hval : ∀ i e j e', Geo.value ⟨N, ys⟩ i e j e' k = termValue (t.kind.base N) t.orbitals y.cached i e j e' := by
    intro i e j e'
    unfold Geo.value
    simp only [hy, b2, b1, bind, Option.bind]
  refine ⟨⟨y, hy, b1, b3⟩, ?_, ?_⟩
  · intro ho i j k1 k2 hi hj hi1 hi2
    rw [ho] at b4 hval hd hgt
    obtain ⟨c, hc, hv⟩ := connectors_number _ N _ hgt _ hd
    rw [hc] at b4
    cases b4
    obtain ⟨hs, hv⟩ := hv i j k1 k2 hi hj hi1 hi2
    rw [hval, hval]
    refine ⟨hs.symm, ?_, ?_⟩
    · intro hcon
      rcases hv with hv | hv
      · exact hv.2
      · rw [hcon] at hv
        cases hv.1
    · intro hcon
      rcases hv with hv | ⟨-, d, dd, hh, x, q1, q2, q3, q4, q5⟩
      · rw [hcon] at hv
        cases hv.1
      · rw [List.getElem?_map, Option.map_eq_some_iff] at q2
        obtain ⟨cc, hcc, rfl⟩ := q2
        obtain ⟨n, xs, rfl, -, -⟩ := (ht t htm).numbers ho d cc hcc
        unfold dirOf at q4
        rw [if_pos rfl] at q4
        simp only [List.headD_cons, List.drop_succ_cons, List.drop_zero, List.getElem?_map, Option.map_eq_some_iff] at q4
        obtain ⟨s, hs1, rfl⟩ := q4
        refine ⟨s, ?_, q5⟩
        unfold TermSpec.number
        simp only [q1, hcc, q3, bind, Option.bind, List.getElem?_cons_zero, List.getElem?_cons_succ, hs1]
  · intro ho i j e e' k1 k2 hij hi he he' hi1 hi2
    have ho1 : 1 < t.orbitals := by have := (ht t htm).dof.1; omega
    obtain ⟨c, hc, hv⟩ := connectors_matrix _ N _ _ hgt _ hd ho1
    obtain ⟨c', hc', hv'⟩ := connectors_hermitian _ N _ _ hgt _ hd ho1
    rw [hc] at hc'
    cases hc'
    rw [hc] at b4
    cases b4
    obtain ⟨v, w1, w2⟩ := hv' i j e e' k1 k2 hi (by omega) he he' hi1 hi2
    rw [hval, hval]
    refine ⟨?_, ?_⟩
    · intro hcon
      rcases hv i j e e' k1 k2 hij hi he he' hi1 hi2 with hv | hv
      · rw [hv.2] at w1
        cases w1
        exact ⟨hv.2, by rw [w2, star_zero]⟩
      · rw [hcon] at hv
        cases hv.1
    · intro hcon
      rcases hv i j e e' k1 k2 hij hi he he' hi1 hi2 with hv | ⟨-, d, dd, hh, m, s, x, q1, q2, q3, q4, q5, q6, q7⟩
      · rw [hcon] at hv
        cases hv.1
      · rw [List.getElem?_map, Option.map_eq_some_iff] at q2
        obtain ⟨cc, hcc, rfl⟩ := q2
        unfold dirOf at q4
        rw [if_neg ho] at q4
        simp only [List.getElem?_map, Option.map_eq_some_iff] at q4
        obtain ⟨l, hl, rfl⟩ := q4
        rw [q7] at w1
        cases w1
        refine ⟨l, x, s, ?_, q6, q5, q7, w2⟩
        unfold TermSpec.matrix
        simp only [q1, hcc, q3, bind, Option.bind, hl]

/-- **C83** In particular, for an open chain with one orbital the `i`-th number of its list is the value between site `i` and the
next one, and all other values are zero. -/
theorem chain_file {junk : Bool} {num : Str → Out α} {value : Str → α} {mat : List Str → Out (Mat α)} {matrix : List Str → Mat α}
    {chk : Check} {ls : List Line} (h : FileOk chk ls) (hk : KindsApart ls) {N : Nat} {specs : List TermSpec} (hf : GeoFile ls N specs)
    (h2 : 2 ≤ N) (hN : N < 2 ^ 31) (hn : specs.length < 2 ^ 31) (ht : ∀ t ∈ specs, t.Ok num value mat matrix N)
    (hg : ∀ t ∈ specs, Good (t.kind.base N) N t.orbitals t.const) :
    ∃ r geo r', load chk (render ls) = .ok r ∧ readGeo junk num mat r = .ok (geo, r') ∧
      ∀ k t, specs[k]? = some t → t.kind = .chain none none → t.orbitals = 1 → t.const = false →
        ∃ n xs, t.connectors = [[n :: xs]] ∧ xs.length = N - 1 ∧
          (∀ i s, xs[i]? = some s → geo.value i 0 (i + 1) 0 k = some (value s) ∧ geo.value (i + 1) 0 i 0 k = some (value s)) ∧
          ∀ i j, i < N → j < N → i + 1 ≠ j → j + 1 ≠ i → geo.value i 0 j 0 k = some 0 := by
  obtain ⟨r, geo, r', e1, e2, -, -, hv⟩ := geometry_file (junk := junk) h hk hf hN hn ht hg
  refine ⟨r, geo, r', e1, e2, ?_⟩
  intro k t hkt hkind ho hc
  have htm : t ∈ specs := List.mem_of_getElem? hkt
  have hbase : t.kind.base N = chainBase ⟨N, false, 1⟩ := by rw [hkind]; rfl
  have hdirs := (ht t htm).dirs
  rw [hbase] at hdirs
  obtain ⟨c, hc0⟩ := List.length_eq_one_iff.1 hdirs
  obtain ⟨n, xs, rfl, hs, -⟩ := (ht t htm).numbers ho 0 c (by rw [hc0]; rfl)
  have hlen : xs.length = N - 1 := by
    rw [TermSpec.size, hc, hbase] at hs
    simp only [chainBase, LongChain.getVectorSize, if_true, Bool.false_eq_true, if_false, Option.some.injEq, Nat.add_zero] at hs
    rw [← hs, sub64_le (by omega)]
  obtain ⟨-, hone, -⟩ := hv k t hkt
  have hone := hone ho
  rw [hbase] at hone
  have hidx : ∀ i, (chainBase ⟨N, false, 1⟩).index i 0 1 = some (some (0 + i * 1)) := fun i => by
    simp [chainBase, defaultIndex]
  refine ⟨n, xs, hc0, hlen, ?_, ?_⟩
  · intro i s hi
    have hlt := (List.getElem?_eq_some_iff.1 hi).1
    obtain ⟨q1, -, q3⟩ := hone i (i + 1) _ _ (by omega) (by omega) (hidx i) (hidx (i + 1))
    obtain ⟨s', q4, q5⟩ := q3 (by simp [chainBase, LongChain.connected])
    have : s' = s := by
      unfold TermSpec.number at q4
      rw [hbase, hc0, hc] at q4
      simp only [chainBase, LongChain.handle, bind, Option.bind, List.getElem?_cons_zero, Bool.false_eq_true, if_false,
        List.getElem?_cons_succ, Nat.lt_add_one, if_true] at q4
      rw [hi] at q4
      cases q4
      rfl
    subst this
    exact ⟨q5, by rw [q1, q5]⟩
  · intro i j hi hj h1 h2
    refine (hone i j _ _ hi hj (hidx i) (hidx j)).2.1 ?_
    simp only [chainBase, LongChain.connected, Option.some.injEq]
    by_cases hij : i = j
    · rw [if_pos hij]
    · rw [if_neg hij]
      simp only [Bool.not_false, if_true]
      rw [beq_eq_false_iff_ne]
      split_ifs <;> omega

theorem first_text {ls : List Line} (hk : KindsApart ls) {r : Readable} (ha : After ls [] r) {l v : Str} {rest : List Str}
    (hl : l ∈ geoLabels) (hx : occ (texts ls) l = v :: rest) : ∃ r', readline r (l ++ ['=']) = .ok (v, r') := by
  obtain ⟨g1, g2, g3⟩ := geo_ok l hl
  rw [readline_equal r l g1 g3]
  rcases call_step ls hk [] r ha (.text l true) ⟨g1, g2, g3⟩ with ⟨h1, -, -⟩ | ⟨a, r', h1, h2, -⟩
  · simp [answer, movedText, hx] at h1
  · simp only [answer, movedText, hx, List.countP_nil, Nat.zero_min, List.getElem?_cons_zero, Option.map_some, Option.some.injEq] at h1
    subst h1
    refine ⟨r', ?_⟩
    simp only [Call.run] at h2
    cases hr : readline r l with
    | error e => rw [hr] at h2; cases h2
    | ok x =>
      obtain ⟨v', r''⟩ := x
      rw [hr] at h2
      simp only [bind, Except.bind, pure, Except.pure, Except.ok.injEq, Prod.mk.injEq, Answer.text.injEq] at h2
      rw [h2.1, h2.2]

/-- **C83** A negative number of sites is refused. -/
theorem negative_sites {junk : Bool} {num : Str → Out α} {mat : List Str → Out (Mat α)} {chk : Check} {ls : List Line}
    (h : FileOk chk ls) (hk : KindsApart ls) (x : Int) (rest : List Str) (hx : occ (texts ls) "TotalNumberOfSites".toList = decimal x :: rest)
    (h1 : -2147483648 ≤ x) (h2 : x < 0) :
    ∃ r, load chk (render ls) = .ok r ∧ readGeo junk num mat r = .error .thrown := by
  obtain ⟨r, e1, hr⟩ := load_ok chk ls h
  refine ⟨r, e1, ?_⟩
  obtain ⟨r1, e2⟩ := first_text hk (after_load ls r hr) mem_sites hx
  rw [← lab_sites] at e2
  have e3 : readValue asInt r "TotalNumberOfSites=".toList = .ok (x, r1) := by
    rw [readValue_spec]
    refine (bind_ok e2 _).trans ((bind_ok (asInt_spec x h1 (by omega)) _).trans rfl)
  unfold readGeo
  exact (bind_ok e3 _).trans (if_pos h2)

/-! ## A file with two terms -/

/-- A chain with numbers and a ladder with constant values. -/
def geoFile : List Line :=
  [.text "TotalNumberOfSites".toList "4".toList, .text "NumberOfTerms".toList "2".toList, .blank,
   .text "GeometryKind".toList "chain".toList, .text "GeometryOptions".toList "none".toList,
   .vec "Connectors".toList ["3".toList, "1".toList, "-2".toList, "7".toList],
   .text "GeometryKind".toList "ladder".toList, .text "LadderLeg".toList "2".toList,
   .text "GeometryOptions".toList "ConstantValues".toList, .text "U".toList "5".toList,
   .vec "Connectors".toList ["1".toList, "5".toList], .vec "Connectors".toList ["1".toList, "6".toList]]

/-- What it says. -/
def geoSpecs : List TermSpec :=
  [⟨none, .chain none none, "none".toList, [[["3".toList, "1".toList, "-2".toList, "7".toList]]]⟩,
   ⟨none, .ladder 2 none none, "ConstantValues".toList, [[["1".toList, "5".toList]], [["1".toList, "6".toList]]]⟩]

theorem text_ok (chk : Check) (c : Char) (s v : Str) (h1 : c ∉ "0123456789:.+-(),".toList) (h2 : ∀ x ∈ c :: s, x ∉ ['\n', ' ', '\t', '=', '#'] ∧ x ≠ '@')
    (h3 : c ≠ '!') (h4 : v ≠ []) (h5 : ∀ x ∈ v, x ∉ ['\n', ' ', '\t', '=', '#']) : (Line.text (c :: s) v).Ok chk := by
  refine ⟨⟨⟨c, s, rfl, h1⟩, h2⟩, by simpa using h3, ?_, fun x hx => .inl (h5 x hx)⟩
  cases v with
  | nil => exact absurd rfl h4
  | cons x v => exact ⟨x, v, rfl, h5 x List.mem_cons_self⟩

theorem vec_ok (c : Char) (s n : Str) (rest : List Str) (k : Int) (h1 : c ∉ "0123456789:.+-(),".toList)
    (h2 : ∀ x ∈ c :: s, x ∉ ['\n', ' ', '\t', '=', '#'] ∧ x ≠ '@') (h3 : c ≠ '!')
    (h4 : ∀ v ∈ n :: rest, (∃ x ∈ v.head?, x ∈ "0123456789:.+-(),".toList) ∧ ∀ x ∈ v, x ∉ ['\n', ' ', '\t', '=', '#'])
    (h5 : rest ≠ []) (h6 : atoi n = some (some k)) (h7 : (rest.length : Int) = k) : (Line.vec (c :: s) (n :: rest)).Ok anyCheck := by
  refine ⟨⟨⟨c, s, rfl, h1⟩, h2⟩, by simpa using h3, ?_, n, rest, k, rfl, h5, h6, .inr ⟨rfl, h7⟩⟩
  intro v hv
  obtain ⟨⟨x, hx, hx'⟩, h⟩ := h4 v hv
  cases v with
  | nil => cases hx
  | cons y v =>
    cases hx
    exact ⟨⟨_, _, rfl, hx'⟩, h⟩

example : FileOk anyCheck geoFile := by
  refine ⟨?_, ?_, fun _ => rfl, fun _ _ => rfl, by decide +kernel⟩
  · intro l hl
    simp only [geoFile, List.mem_cons, List.not_mem_nil, or_false] at hl
    rcases hl with rfl | rfl | rfl | rfl | rfl | rfl | rfl | rfl | rfl | rfl | rfl | rfl
    · exact text_ok _ 'T' "otalNumberOfSites".toList _ (by decide) (by decide +kernel) (by decide) (by decide) (by decide)
    · exact text_ok _ 'N' "umberOfTerms".toList _ (by decide) (by decide +kernel) (by decide) (by decide) (by decide)
    · trivial
    · exact text_ok _ 'G' "eometryKind".toList _ (by decide) (by decide +kernel) (by decide) (by decide) (by decide)
    · exact text_ok _ 'G' "eometryOptions".toList _ (by decide) (by decide +kernel) (by decide) (by decide) (by decide)
    · exact vec_ok 'C' "onnectors".toList _ _ 3 (by decide) (by decide +kernel) (by decide) (by decide +kernel) (by decide)
        (by decide +kernel) rfl
    · exact text_ok _ 'G' "eometryKind".toList _ (by decide) (by decide +kernel) (by decide) (by decide) (by decide)
    · exact text_ok _ 'L' "adderLeg".toList _ (by decide) (by decide +kernel) (by decide) (by decide) (by decide)
    · exact text_ok _ 'G' "eometryOptions".toList _ (by decide) (by decide +kernel) (by decide) (by decide) (by decide +kernel)
    · exact text_ok _ 'U' [] _ (by decide) (by decide +kernel) (by decide) (by decide) (by decide)
    · exact vec_ok 'C' "onnectors".toList _ _ 1 (by decide) (by decide +kernel) (by decide) (by decide +kernel) (by decide)
        (by decide +kernel) rfl
    · exact vec_ok 'C' "onnectors".toList _ _ 1 (by decide) (by decide +kernel) (by decide) (by decide +kernel) (by decide)
        (by decide +kernel) rfl
  · simp [CommentsOk, geoFile]

example : KindsApart geoFile := by
  intro l
  by_cases h : "Connectors".toList = l
  · subst h; left; decide +kernel
  · right
    have e : vecs geoFile = [("Connectors".toList, ["3".toList, "1".toList, "-2".toList, "7".toList]),
      ("Connectors".toList, ["1".toList, "5".toList]), ("Connectors".toList, ["1".toList, "6".toList])] := rfl
    rw [e, occ_cons, if_neg h, occ_cons, if_neg h, occ_cons, if_neg h]
    rfl

example : GeoFile geoFile 4 geoSpecs := by
  refine ⟨by decide +kernel, by decide +kernel, by decide +kernel, by decide +kernel⟩

example : ∀ t ∈ geoSpecs, t.Ok asInt (fun s => ((asInt s).toOption).getD 0) (fun _ => throwOut) (fun _ => (⟨0, 0, []⟩ : Mat Int)) 4 := by
  intro t ht
  simp only [geoSpecs, List.mem_cons, List.not_mem_nil, or_false] at ht
  rcases ht with rfl | rfl
  · refine ⟨by simp [KindSpec.Ok], by decide, by decide, ?_, fun h => absurd (by decide) h⟩
    intro _ d c hc
    match d, hc with
    | 0, hc =>
      cases hc
      exact ⟨_, _, rfl, by decide +kernel, by decide +kernel⟩
  · refine ⟨by simp [KindSpec.Ok, LadderOk], by decide, by decide, ?_, fun h => absurd (by decide) h⟩
    intro _ d c hc
    match d, hc with
    | 0, hc =>
      cases hc
      exact ⟨_, _, rfl, by decide +kernel, by decide +kernel⟩
    | 1, hc =>
      cases hc
      exact ⟨_, _, rfl, by decide +kernel, by decide +kernel⟩

example : ∀ t ∈ geoSpecs, Good (t.kind.base 4) 4 t.orbitals t.const := by
  intro t ht
  simp only [geoSpecs, List.mem_cons, List.not_mem_nil, or_false] at ht
  rcases ht with rfl | rfl
  · exact chain_good ⟨4, false, 1⟩ (by decide) (by decide) _ _ (.inr (.inl rfl))
  · exact ladder_good ⟨4, 2, false, false⟩ (by constructor <;> decide) _ _

/-- The values of the model for that file. -/
example : ((load anyCheck (render geoFile)).bind fun r => (readGeo false asInt (fun _ => (throwOut : Out (Mat Int))) r).map fun x =>
    ([x.1.value 0 0 1 0 0, x.1.value 2 0 1 0 0, x.1.value 2 0 3 0 0, x.1.value 0 0 2 0 0,
      x.1.value 0 0 1 0 1, x.1.value 0 0 2 0 1, x.1.value 3 0 1 0 1, x.1.value 0 0 3 0 1])) =
    .ok [some 1, some (-2), some 7, some 0, some 6, some 5, some 5, some 0] := by decide +kernel

/-- A term of each of the other kinds. -/
example : (KindSpec.ladderx 2 none none).Ok 6 ∧ Good ((KindSpec.ladderx 2 none none).base 6) 6 1 false :=
  ⟨by simp [KindSpec.Ok, LadderOk], ladderx_good ⟨ladderOf 6 2 none none⟩ ⟨by constructor <;> decide, rfl, rfl⟩ 1 false fun _ => rfl⟩

example : (KindSpec.bath 2 2 none (some 0)).Ok 12 ∧ Good ((KindSpec.bath 2 2 none (some 0)).base 12) 12 1 false :=
  ⟨by simp [KindSpec.Ok, LadderOk],
   bath_good ⟨12, 2, 4, ladderOf 4 2 none (some 0)⟩ ⟨rfl, by decide, rfl, by constructor <;> decide, rfl⟩ 1 false⟩

example : (KindSpec.honeycomb 4 1 none).Ok 12 ∧ Good ((KindSpec.honeycomb 4 1 none).base 12) 12 1 true :=
  ⟨by simp [KindSpec.Ok], honey_good ⟨12, 4, true, false⟩ (by decide) 1⟩

example : ((load anyCheck ("TotalNumberOfSites=12\nNumberOfTerms=3\n" ++
      "GeometryKind=ladderx\nGeometryOptions=ConstantValues\nLadderLeg=2\nIsPeriodicX=0\nIsPeriodicY=0\nConnectors 1 1\nConnectors 1 2\nConnectors 1 3\nConnectors 1 4\n" ++
      "GeometryKind=ladderbath\nGeometryOptions=ConstantValues\nBathSitesPerSite=2\nLadderLeg=2\nIsPeriodicX=0\nIsPeriodicY=0\nConnectors 1 5\nConnectors 1 6\nConnectors 1 7\n" ++
      "GeometryKind=Honeycomb\nGeometryOptions=ConstantValues\nHoneycombLy=4\nIsPeriodicX=0\nIsPeriodicY=1\nConnectors 1 8\nConnectors 1 9\nConnectors 1 10\n").toList).bind fun r =>
        (readGeo false asInt (fun _ => (throwOut : Out (Mat Int))) r).map fun x =>
          ([x.1.value 0 0 2 0 0, x.1.value 0 0 1 0 0, x.1.value 1 0 2 0 0, x.1.value 0 0 3 0 0],
           [x.1.value 4 0 6 0 1, x.1.value 4 0 5 0 1, x.1.value 0 0 4 0 1, x.1.value 0 0 1 0 1],
           [x.1.value 2 0 3 0 2, x.1.value 0 0 1 0 2, x.1.value 0 0 3 0 2, x.1.value 0 0 2 0 2])) =
      .ok ([some 1, some 2, some 3, some 4], [some 5, some 6, some 7, some 0], [some 8, some 9, some 10, some 0]) := by decide +kernel

/-- **C83** The lines of a term must be given for all terms or for none: here only the second of two chains is given
`IsPeriodicX=1`, and the first one is periodic too, its ends are connected. -/
theorem optional_line_fails :
    ((load anyCheck ("TotalNumberOfSites=5\nNumberOfTerms=2\n" ++
      "GeometryKind=chain\nGeometryOptions=ConstantValues\nConnectors 1 3\n" ++
      "GeometryKind=chain\nGeometryOptions=ConstantValues\nIsPeriodicX=1\nConnectors 1 4\n").toList).bind fun r =>
        (readGeo false asInt (fun _ => (throwOut : Out (Mat Int))) r).map fun x => (x.1.value 0 0 4 0 0, x.1.value 0 0 4 0 1)) =
      .ok (some 3, some 4) := by decide +kernel

end Verif.Geom
