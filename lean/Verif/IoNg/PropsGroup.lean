import Verif.IoNg.ModelGroup
import Verif.IoNg.PropsMatrix

/-!
# C119: objects as groups, enumerations, and geometries in files
-/

namespace Verif.IoNg

open Verif.Dense

variable {α S T : Type} [DecidableEq α]

/-! ## From one class to another -/

/-- A class that is written as another one. -/
theorem lawful_of (c : Codec α S) (okS : S → Prop) (hc : c.Lawful okS) (d : Codec α T) (ok : T → Prop) (fro : T → S) (g : S → Out T)
    (hw : ∀ f name x, d.write f name x = c.write f name (fro x)) (hr : ∀ h f name, d.read h f name = c.read h f name >>= g)
    (hok : ∀ x, ok x → okS (fro x) ∧ g (fro x) = .ok x) : d.Lawful ok := by
  refine ⟨?_, ?_⟩
  · intro f n x h0 hn hx hpar hfree
    obtain ⟨f', e1, e2, e3⟩ := hc.writes f n (fro x) h0 hn (hok x hx).1 hpar hfree
    refine ⟨f', (hw _ _ _).trans e1, e2, fun h => ?_⟩
    rw [hr, e3 h]
    exact (hok x hx).2
  · intro h f g' n h0 hn hq
    rw [hr, hr, hc.local_ h f g' n h0 hn hq]

theorem via_lawful (c : Codec α S) (okS : S → Prop) (hc : c.Lawful okS) (fro : T → S) (back : S → T) (ok : T → Prop)
    (hok : ∀ x, ok x → okS (fro x) ∧ back (fro x) = x) : (c.via fro back).Lawful ok := by
  refine lawful_of c okS hc (c.via fro back) ok fro (fun s => .ok (back s)) (fun _ _ _ => rfl) ?_ ?_
  · intro h f name
    unfold Codec.via
    simp only
    cases c.read h f name <;> rfl
  · intro x hx
    exact ⟨(hok x hx).1, by rw [(hok x hx).2]⟩

theorem lawful_weaken {c : Codec α T} {ok ok' : T → Prop} (hc : c.Lawful ok) (h : ∀ x, ok' x → ok x) : c.Lawful ok' :=
  ⟨fun f n x h0 hn hx => hc.writes f n x h0 hn (h x hx), hc.local_⟩

/-! ## Single values -/

theorem size_lawful [Zero α] : (sizeCodec : Codec α Nat).Lawful (fun x => x < 2 ^ 64) := by
  refine lawful_of (leafCodec (.scalar .size)) _ (leaf_lawful _) _ _ (fun x => .scalar .size (.int x))
    (fun v => match v with
      | .scalar _ (.int z) => .ok z.toNat
      | _ => throwOut) (fun _ _ _ => rfl) ?_ ?_
  · intro h f name
    unfold sizeCodec leafCodec Leaf.read
    simp only [bind, Except.bind]
    cases readScalar h f name .size (.int 0) with
    | error e => rfl
    | ok x => cases x <;> rfl
  · intro x hx
    refine ⟨⟨⟨by omega, ?_⟩, rfl⟩, ?_⟩
    · exact_mod_cast hx
    · simp

theorem bool_lawful [Zero α] : (boolCodec : Codec α Bool).Lawful (fun _ => True) := by
  refine lawful_of (leafCodec .bool) _ (leaf_lawful _) _ _ Leaf.bool
    (fun v => match v with
      | .bool b => .ok b
      | _ => throwOut) (fun _ _ _ => rfl) ?_ ?_
  · intro h f name
    unfold boolCodec leafCodec Leaf.read
    simp only [bind, Except.bind]
    cases readBool h f name <;> rfl
  · intro x _
    exact ⟨⟨trivial, rfl⟩, rfl⟩

theorem string_lawful [Zero α] : (stringCodec : Codec α Str).Lawful (fun s => s ≠ [] ∧ ∀ c ∈ s, c.toNat < 128) := by
  refine lawful_of (leafCodec .text) _ (leaf_lawful _) _ _ Leaf.text
    (fun v => match v with
      | .text b => .ok b
      | _ => throwOut) (fun _ _ _ => rfl) ?_ ?_
  · intro h f name
    unfold stringCodec leafCodec Leaf.read
    simp only [bind, Except.bind]
    cases readString h f name <;> rfl
  · intro x hx
    exact ⟨⟨hx, rfl⟩, rfl⟩

/-- **C119** An enumeration is read back if its value is less than 256. -/
theorem enum_lawful [Zero α] : (enumCodec : Codec α (BitVec 32)).Lawful (fun e => e.toNat < 256) := by
  refine ⟨?_, ?_⟩
  · intro f n e h0 hn he hpar hfree
    have hb : (e.setWidth 8).toNat = e.toNat := by
      rw [BitVec.toNat_setWidth]
      omega
    obtain ⟨f', e1, e2, e3⟩ := (leaf_lawful (α := α) (.scalar .uchar)).writes f n (.scalar .uchar (.int (e.setWidth 8).toNat)) h0 hn
      ⟨⟨by omega, by rw [hb]; omega⟩, rfl⟩ hpar hfree
    have hg : put f .no (inDef n.text) ⟨.uchar, [.int (e.setWidth 8).toNat]⟩ = f' := by
      cases e1
      rfl
    have hd : f' ("Def".toList :: n) = some (.data ⟨.uchar, [.int (e.setWidth 8).toNat]⟩) := by
      rw [← hg, put_eq f .no _ _ _ (path_inDef n h0 hn) (by simp) (by rw [hfree _ (foot_self n)]; simp) (by rw [hpar]; simp),
        if_pos ⟨hpar, .inr (hfree _ (foot_self n))⟩, set_same]
    refine ⟨f', e1, e2, fun h => ?_⟩
    show readEnum h f' n.text = _
    have hs : readScalar h f' n.text .size (.int 0) = .ok (.int (e.setWidth 8).toNat) := by
      unfold readScalar
      rw [openDataSet_eq f' _ _ (path_inDef n h0 hn), hd]
      simp only [bind, Except.bind, pure, Except.pure]
      rw [h.cvt_fits _ _ _ (show (Num.int ((e.setWidth 8).toNat : Int) : Num α).Fits .size from ⟨by omega, by rw [hb]; omega⟩)]
    unfold readEnum
    rw [hs]
    simp only [bind, Except.bind]
    rw [hb]
    show Except.ok _ = _
    simp
  · intro h f g n h0 hn hq
    have := read_congr h f g n h0 hn (hq _ (foot_self n)) (hq _ (foot_mark n)) (.scalar .size)
    show readEnum h f n.text = readEnum h g n.text
    unfold readEnum
    have e : readScalar h f n.text .size (.int 0) = readScalar h g n.text .size (.int 0) := by
      unfold readScalar
      rw [openDataSet_eq f _ _ (path_inDef n h0 hn), openDataSet_eq g _ _ (path_inDef n h0 hn), hq _ (foot_self n)]
    rw [e]

/-- **C119** A vector of numbers, also one without numbers: that is not in the file. -/
theorem numbers_lawful [Zero α] (el : Elem α T) (ok : T → Prop) (hel : el.Lawful ok)
    (he : ∀ (f : File α) name, (el.toLeaf []).write f name .no = .ok f) : (numbersCodec el).Lawful (fun xs => ∀ x ∈ xs, ok x) := by
  refine ⟨?_, ?_⟩
  · intro f n xs h0 hn hx hpar hfree
    by_cases hxs : xs = []
    · subst hxs
      refine ⟨f, he f _, fun _ _ => rfl, fun h => ?_⟩
      unfold numbersCodec
      simp only
      rw [leaf_read_none h f n h0 hn el.kind (hfree _ (foot_self n))]
      rfl
    · obtain ⟨f', e1, e2, e3⟩ := (leaf_lawful (α := α) el.kind).writes f n (el.toLeaf xs) h0 hn ⟨hel.fits xs hxs hx, hel.kind xs⟩ hpar hfree
      refine ⟨f', e1, e2, fun h => ?_⟩
      have := e3 h
      unfold leafCodec at this
      simp only at this
      unfold numbersCodec
      simp only
      rw [this]
      simp only [hel.back]
  · intro h f g n h0 hn hq
    unfold numbersCodec
    simp only
    rw [read_congr h f g n h0 hn (hq _ (foot_self n)) (hq _ (foot_mark n)) el.kind]

/-! ## Groups -/

/-- The members of a class are kept. -/
structure Fields.Lawful (F : Fields α T) (ok : T → Prop) : Prop where
  parts : ∀ w ∈ F.labels, IsPart w ∧ ¬ cor <:+ w
  nodup : F.labels.Nodup
  writes : ∀ (f : File α) (n : Name) (x : T), n ≠ [] → (∀ w ∈ n, IsPart w) → ok x → f ("Def".toList :: n) = some .group →
    (∀ w ∈ F.labels, ∀ q, Foot (n ++ [w]) q → f q = none) →
    ∃ f', F.write f n.text x = .ok f' ∧ (∀ q, (∀ w ∈ F.labels, ¬ Foot (n ++ [w]) q) → f' q = f q) ∧ ∀ h, F.read h f' n.text = .ok x
  local_ : ∀ (h : H5 α) (f g : File α) (n : Name), n ≠ [] → (∀ w ∈ n, IsPart w) →
    (∀ w ∈ F.labels, ∀ q, Foot (n ++ [w]) q → f q = g q) → F.read h f n.text = F.read h g n.text

omit [DecidableEq α] in
theorem nil_lawful : (Fields.nil : Fields α Unit).Lawful (fun _ => True) :=
  ⟨by simp [Fields.nil], by simp [Fields.nil], fun f _ _ _ _ _ _ _ => ⟨f, rfl, fun _ _ => rfl, fun _ => rfl⟩, fun _ _ _ _ _ _ _ => rfl⟩

omit [DecidableEq α] in
theorem cons_lawful (w : Str) (c : Codec α S) (F : Fields α T) (okS : S → Prop) (okT : T → Prop) (hc : c.Lawful okS)
    (hF : F.Lawful okT) (hw : IsPart w) (hcor : ¬ cor <:+ w) (hnew : w ∉ F.labels) :
    (Fields.cons w c F).Lawful (fun x => okS x.1 ∧ okT x.2) := by
  have hdis : ∀ n, ∀ v ∈ F.labels, ∀ q, Foot (n ++ [w]) q → Foot (n ++ [v]) q → False := fun n v hv q =>
    foot_disjoint n w v hcor (hF.parts v hv).2 (fun e => hnew (e ▸ hv)) q
  refine ⟨?_, List.nodup_cons.2 ⟨hnew, hF.nodup⟩, ?_, ?_⟩
  · intro v hv
    rcases List.mem_cons.1 hv with rfl | hv
    · exact ⟨hw, hcor⟩
    · exact hF.parts v hv
  · rintro f n x h0 hn ⟨hx1, hx2⟩ hg hfree
    obtain ⟨f1, a1, a2, a3⟩ := hc.writes f (n ++ [w]) x.1 (by simp) (parts_concat hn hw) hx1 (by rw [dropLast_concat', hg])
      (hfree w List.mem_cons_self)
    obtain ⟨f2, b1, b2, b3⟩ := hF.writes f1 n x.2 h0 hn hx2 (by rw [a2 _ (fun hq => (foot_below n _ _ hq).2 rfl), hg])
      (fun v hv q hq => by rw [a2 q fun hq' => hdis n v hv q hq' hq]; exact hfree v (List.mem_cons_of_mem _ hv) q hq)
    rw [text_concat n _ h0] at a1
    refine ⟨f2, ?_, ?_, ?_⟩
    · unfold Fields.cons
      simp only [bind, Except.bind, a1]
      exact b1
    · intro q hq
      rw [b2 q (fun v hv => hq v (List.mem_cons_of_mem _ hv)), a2 q (hq w List.mem_cons_self)]
    · intro h
      have g1 := hc.local_ h f2 f1 (n ++ [w]) (by simp) (parts_concat hn hw) (fun q hq => b2 q fun v hv hq' => hdis n v hv q hq hq')
      rw [a3 h, text_concat n _ h0] at g1
      unfold Fields.cons
      simp only [bind, Except.bind, g1, b3 h]
      rfl
  · intro h f g n h0 hn hq
    have g1 := hc.local_ h f g (n ++ [w]) (by simp) (parts_concat hn hw) (hq w List.mem_cons_self)
    have g2 := hF.local_ h f g n h0 hn (fun v hv => hq v (List.mem_cons_of_mem _ hv))
    rw [text_concat n _ h0] at g1
    unfold Fields.cons
    simp only [g1, g2]

/-- **C119** An object whose members are kept is kept: it is written under any free name whose group exists, changes nothing else in
the file, and every member is read back. -/
theorem group_lawful (F : Fields α T) (ok : T → Prop) (hF : F.Lawful ok) : (group F).Lawful ok := by
  refine ⟨?_, ?_⟩
  · intro f n x h0 hn hx hpar hfree
    have hbelow : ∀ w q, Foot (n ++ [w]) q → Foot n q := fun w q hq => .inl (foot_below n w q hq).1
    obtain ⟨f', a1, a2, a3⟩ := hF.writes (f.set ("Def".toList :: n) (some .group)) n x h0 hn hx (set_same _ _ _)
      (fun w _ q hq => by rw [set_other _ _ _ _ (foot_below n _ q hq).2]; exact hfree q (hbelow _ q hq))
    refine ⟨f', ?_, ?_, a3⟩
    · unfold group
      simp only [createGroup_ok f n h0 hn hpar (hfree _ (foot_self n)), bind, Except.bind]
      exact a1
    · intro q hq
      rw [a2 q (fun w _ hq' => hq (hbelow _ q hq')), set_other _ _ _ _ (by rintro rfl; exact hq (foot_self n))]
  · intro h f g n h0 hn hq
    exact hF.local_ h f g n h0 hn (fun w _ q hq' => hq q (.inl (foot_below n _ q hq').1))

/-! ## Geometries -/

theorem dirAux_lawful [Zero α] : (dirAuxCodec : Codec α DirAux).Lawful (fun a => a.dirId < 2 ^ 64 ∧ a.idof.toNat < 256) := by
  refine via_lawful _ _ (group_lawful _ _ (cons_lawful _ _ _ _ _ bool_lawful (cons_lawful _ _ _ _ _ size_lawful
    (cons_lawful _ _ _ _ _ enum_lawful nil_lawful ?_ ?_ ?_) ?_ ?_ ?_) ?_ ?_ ?_)) _ _ _ ?_
  case refine_10 => exact fun a h => ⟨⟨trivial, h.1, h.2, trivial⟩, rfl⟩
  all_goals first | exact ⟨by decide, by decide⟩ | decide +kernel | (simp only [Fields.nil, Fields.cons]; decide +kernel)

/-- A direction that can be stored. -/
def DirFile.Ok (ok : T → Prop) (d : DirFile T) : Prop :=
  d.aux.dirId < 2 ^ 64 ∧ d.aux.idof.toNat < 256 ∧ (∀ x ∈ d.numbers, ok x) ∧ (∀ m ∈ d.matrices, MatOk ok m) ∧
    d.matrices.length < 2 ^ 64 ∧ MatOk ok d.rawHoppings

theorem dir_lawful [Zero α] (el : Elem α T) (ok : T → Prop) (hel : el.Lawful ok)
    (he : ∀ (f : File α) name, (el.toLeaf []).write f name .no = .ok f) : (dirCodec el).Lawful (DirFile.Ok ok) := by
  refine via_lawful _ _ (group_lawful _ _ (cons_lawful _ _ _ _ _ dirAux_lawful (cons_lawful _ _ _ _ _ (numbers_lawful el ok hel he)
    (cons_lawful _ _ _ _ _ (list_lawful _ _ (mat_lawful el ok hel)) (cons_lawful _ _ _ _ _ (mat_lawful el ok hel) nil_lawful ?_ ?_ ?_)
      ?_ ?_ ?_) ?_ ?_ ?_) ?_ ?_ ?_)) _ _ _ ?_
  case refine_13 => exact fun d h => ⟨⟨⟨h.1, h.2.1⟩, h.2.2.1, ⟨h.2.2.2.1, h.2.2.2.2.1⟩, h.2.2.2.2.2, trivial⟩, rfl⟩
  all_goals first | exact ⟨by decide, by decide⟩ | decide +kernel | (simp only [Fields.nil, Fields.cons]; decide +kernel)

theorem termAux_lawful [Zero α] : (termAuxCodec : Codec α TermAux).Lawful
    (fun a => a.termId < 2 ^ 64 ∧ a.numberOfTerms < 2 ^ 64 ∧ a.linSize < 2 ^ 64) := by
  refine via_lawful _ _ (group_lawful _ _ (cons_lawful _ _ _ _ _ bool_lawful (cons_lawful _ _ _ _ _ size_lawful
    (cons_lawful _ _ _ _ _ size_lawful (cons_lawful _ _ _ _ _ size_lawful nil_lawful ?_ ?_ ?_) ?_ ?_ ?_) ?_ ?_ ?_) ?_ ?_ ?_)) _ _ _ ?_
  case refine_13 => exact fun a h => ⟨⟨trivial, h.1, h.2.1, h.2.2, trivial⟩, rfl⟩
  all_goals first | exact ⟨by decide, by decide⟩ | decide +kernel | (simp only [Fields.nil, Fields.cons]; decide +kernel)

/-- A term that can be stored. -/
def TermFile.Ok (ok : T → Prop) (t : TermFile T) : Prop :=
  (t.aux.termId < 2 ^ 64 ∧ t.aux.numberOfTerms < 2 ^ 64 ∧ t.aux.linSize < 2 ^ 64) ∧ t.orbitals < 2 ^ 64 ∧
    (t.options ≠ [] ∧ ∀ c ∈ t.options, c.toNat < 128) ∧ ((∀ d ∈ t.directions, DirFile.Ok ok d) ∧ t.directions.length < 2 ^ 64) ∧
    MatOk ok t.cached

theorem term_lawful [Zero α] (el : Elem α T) (ok : T → Prop) (hel : el.Lawful ok)
    (he : ∀ (f : File α) name, (el.toLeaf []).write f name .no = .ok f) : (termCodec el).Lawful (TermFile.Ok ok) := by
  refine via_lawful _ _ (group_lawful _ _ (cons_lawful _ _ _ _ _ termAux_lawful (cons_lawful _ _ _ _ _ size_lawful
    (cons_lawful _ _ _ _ _ string_lawful (cons_lawful _ _ _ _ _ (list_lawful _ _ (dir_lawful el ok hel he))
      (cons_lawful _ _ _ _ _ (mat_lawful el ok hel) nil_lawful ?_ ?_ ?_) ?_ ?_ ?_) ?_ ?_ ?_) ?_ ?_ ?_) ?_ ?_ ?_)) _ _ _ ?_
  case refine_16 => exact fun t h => ⟨⟨h.1, h.2.1, h.2.2.1, h.2.2.2.1, h.2.2.2.2, trivial⟩, rfl⟩
  all_goals first | exact ⟨by decide, by decide⟩ | decide +kernel | (simp only [Fields.nil, Fields.cons]; decide +kernel)

/-- A geometry that can be stored. -/
def GeoFile.Ok (ok : T → Prop) (g : GeoFile T) : Prop :=
  g.linSize < 2 ^ 64 ∧ (∀ t ∈ g.terms, TermFile.Ok ok t) ∧ g.terms.length < 2 ^ 64

/-- **C119** A geometry written to a file is kept, with all its terms, directions, connectors and cached values. -/
theorem geo_lawful [Zero α] (el : Elem α T) (ok : T → Prop) (hel : el.Lawful ok)
    (he : ∀ (f : File α) name, (el.toLeaf []).write f name .no = .ok f) : (geoCodec el).Lawful (GeoFile.Ok ok) := by
  refine via_lawful _ _ (group_lawful _ _ (cons_lawful _ _ _ _ _ size_lawful (cons_lawful _ _ _ _ _
    (list_lawful _ _ (term_lawful el ok hel he)) nil_lawful ?_ ?_ ?_) ?_ ?_ ?_)) _ _ _ ?_
  case refine_7 => exact fun t h => ⟨⟨h.1, h.2, trivial⟩, rfl⟩
  all_goals first | exact ⟨by decide, by decide⟩ | decide +kernel | (simp only [Fields.nil, Fields.cons]; decide +kernel)

/-- **C119** Real and complex connectors. -/
theorem geo_real [Zero α] : (geoCodec (realElem α)).Lawful (GeoFile.Ok fun _ => True) :=
  geo_lawful _ _ real_lawful fun _ _ => rfl

/-- **C119** Real and complex connectors. -/
theorem geo_complex [Zero α] : (geoCodec (complexElem α)).Lawful (GeoFile.Ok fun _ => True) :=
  geo_lawful _ _ complex_lawful fun _ _ => rfl

theorem bind_inv {S U : Type} {a : Out S} {g : S → Out U} {y : U} (h : (a >>= g) = .ok y) : ∃ x, a = .ok x ∧ g x = .ok y := by
  cases a with
  | error e => cases h
  | ok x => exact ⟨x, rfl, h⟩

theorem map_inv {S U : Type} {a : Out S} {g : S → U} {y : U} (h : a.map g = .ok y) : ∃ x, a = .ok x ∧ g x = y := by
  cases a with
  | error e => cases h
  | ok x =>
    cases h
    exact ⟨x, rfl, rfl⟩

theorem mapM_inv {S U : Type} (g : S → Out U) (l : List S) (ys : List U) (h : l.mapM g = .ok ys) :
    ∀ (k : Nat) x y, l[k]? = some x → ys[k]? = some y → g x = .ok y := by
  induction l generalizing ys with
  | nil =>
    intro k x y hx
    simp at hx
  | cons a l ih =>
    rw [List.mapM_cons] at h
    obtain ⟨b, h1, h⟩ := bind_inv h
    obtain ⟨bs, h2, h⟩ := bind_inv h
    cases h
    intro k x y hx hy
    cases k with
    | zero =>
      simp only [List.getElem?_cons_zero, Option.some.injEq] at hx hy
      rw [← hx, ← hy, h1]
    | succ k =>
      simp only [List.getElem?_cons_succ] at hx hy
      exact ih bs h2 k x y hx hy

omit [DecidableEq α] in
theorem list_entry (c : Codec α T) (h : H5 α) (f : File α) (name : Str) (xs : List T) (hr : readList c h f name = .ok xs) (k : Nat) (x : T)
    (hk : xs[k]? = some x) : c.read h f (name ++ '/' :: digits k) = .ok x := by
  unfold readList at hr
  obtain ⟨m, _, hr⟩ := bind_inv hr
  have hl : ∀ (l : List Nat) (ys : List T), l.mapM (fun i => c.read h f (name ++ '/' :: digits i)) = .ok ys → ys.length = l.length := by
    intro l
    induction l with
    | nil => intro ys h; cases h; rfl
    | cons a l ih =>
      intro ys h
      rw [List.mapM_cons] at h
      obtain ⟨b, _, h⟩ := bind_inv h
      obtain ⟨bs, h2, h⟩ := bind_inv h
      cases h
      simp [ih bs h2]
  have hkm : k < m := by
    have := hl _ _ hr
    rw [List.length_range] at this
    rw [← this]
    exact (List.getElem?_eq_some_iff.1 hk).1
  exact mapM_inv _ _ _ hr k k x (by simp [hkm]) hk

/-- **C119** Where the values are: each number, string and matrix of a geometry, under the name of the geometry and the names of the
members. -/
theorem geo_places [Zero α] (el : Elem α T) (ok : T → Prop) (hel : el.Lawful ok)
    (he : ∀ (f : File α) name, (el.toLeaf []).write f name .no = .ok f) (f : File α) (n : Name) (h0 : n ≠ []) (hn : ∀ w ∈ n, IsPart w)
    (g : GeoFile T) (hg : g.Ok ok) (hpar : f ("Def".toList :: n).dropLast = some .group) (hfree : ∀ q, Foot n q → f q = none) :
    ∃ f', (geoCodec el).write f n.text g = .ok f' ∧ (∀ q, ¬ Foot n q → f' q = f q) ∧ ∀ h,
      sizeCodec.read h f' (n.text ++ "/linSize_".toList) = .ok g.linSize ∧
      ∀ k t, g.terms[k]? = some t →
        sizeCodec.read h f' (n.text ++ "/terms_/".toList ++ digits k ++ "/orbitals_".toList) = .ok t.orbitals ∧
        readString h f' (n.text ++ "/terms_/".toList ++ digits k ++ "/gOptions_".toList) = .ok t.options ∧
        readMat el ⟨0, 0, []⟩ h f' (n.text ++ "/terms_/".toList ++ digits k ++ "/cachedValues_".toList) = .ok t.cached ∧
        ∀ i d, t.directions[i]? = some d →
          readEnum h f' (n.text ++ "/terms_/".toList ++ digits k ++ "/directions_/".toList ++ digits i ++ "/aux_/edof".toList) =
            .ok d.aux.idof ∧
          (numbersCodec el).read h f' (n.text ++ "/terms_/".toList ++ digits k ++ "/directions_/".toList ++ digits i ++
            "/dataNumbers_".toList) = .ok d.numbers ∧
          ∀ j m, d.matrices[j]? = some m →
            readMat el ⟨0, 0, []⟩ h f' (n.text ++ "/terms_/".toList ++ digits k ++ "/directions_/".toList ++ digits i ++
              "/dataMatrices_/".toList ++ digits j) = .ok m := by
  obtain ⟨f', e1, e2, e3⟩ := (geo_lawful el ok hel he).writes f n g h0 hn hg hpar hfree
  refine ⟨f', e1, e2, fun h => ?_⟩
  obtain ⟨x, r, rfl⟩ := map_inv (e3 h)
  obtain ⟨a, r1, r⟩ := bind_inv r
  obtain ⟨b, r2, r⟩ := bind_inv r
  cases r
  obtain ⟨ts, r3, r2⟩ := bind_inv r2
  obtain ⟨_, _, r2⟩ := bind_inv r2
  cases r2
  refine ⟨r1, fun k t hk => ?_⟩
  obtain ⟨x, s, rfl⟩ := map_inv (list_entry _ h f' _ _ r3 k t hk)
  obtain ⟨a1, s1, s⟩ := bind_inv s
  obtain ⟨b1, s2, s⟩ := bind_inv s
  cases s
  obtain ⟨a2, s3, s2⟩ := bind_inv s2
  obtain ⟨b2, s4, s2⟩ := bind_inv s2
  cases s2
  obtain ⟨a3, s5, s4⟩ := bind_inv s4
  obtain ⟨b3, s6, s4⟩ := bind_inv s4
  cases s4
  obtain ⟨a4, s7, s6⟩ := bind_inv s6
  obtain ⟨b4, s8, s6⟩ := bind_inv s6
  cases s6
  obtain ⟨a5, s9, s8⟩ := bind_inv s8
  obtain ⟨_, _, s8⟩ := bind_inv s8
  cases s8
  simp only [List.append_assoc] at s3 s5 s7 s9 ⊢
  refine ⟨s3, s5, s9, fun i d hi => ?_⟩
  obtain ⟨x, u, rfl⟩ := map_inv (list_entry _ h f' _ _ s7 i d hi)
  obtain ⟨c1, u1, u⟩ := bind_inv u
  obtain ⟨d1, u2, u⟩ := bind_inv u
  cases u
  obtain ⟨c2, u3, u2⟩ := bind_inv u2
  obtain ⟨d2, u4, u2⟩ := bind_inv u2
  cases u2
  obtain ⟨c3, u5, u4⟩ := bind_inv u4
  obtain ⟨d3, u6, u4⟩ := bind_inv u4
  cases u4
  obtain ⟨x, u6, rfl⟩ := map_inv u1
  obtain ⟨z1, _, u1⟩ := bind_inv u6
  obtain ⟨y1, v2, u1⟩ := bind_inv u1
  cases u1
  obtain ⟨z2, _, v2⟩ := bind_inv v2
  obtain ⟨y2, v4, v2⟩ := bind_inv v2
  cases v2
  obtain ⟨z3, v5, v4⟩ := bind_inv v4
  obtain ⟨_, _, v4⟩ := bind_inv v4
  cases v4
  simp only [List.append_assoc, List.cons_append] at v5 u3 u5 ⊢
  refine ⟨v5, u3, fun j m hj => ?_⟩
  have w := list_entry _ h f' _ _ u5 j m hj
  simp only [List.append_assoc, List.cons_append] at w ⊢
  exact w

/-- The hypotheses are met: a chain of two sites with one connector, the matrix of which is cached. -/
example : (⟨2, [⟨⟨false, 0, 1, 2⟩, 1, "none".toList, [⟨⟨false, 0, 1⟩, [5], [], ⟨0, 0, []⟩⟩], ⟨2, 2, [0, 5, 5, 0]⟩⟩]⟩ : GeoFile Int).Ok
    fun _ => True := by
  refine ⟨by decide, ?_, by decide⟩
  intro t ht
  rw [List.mem_singleton] at ht
  subst ht
  refine ⟨⟨by decide, by decide, by decide⟩, by decide, ⟨by decide, by decide⟩, ⟨?_, by decide⟩, ⟨rfl, by decide, by decide, fun _ _ => trivial⟩⟩
  intro d hd
  rw [List.mem_singleton] at hd
  subst hd
  exact ⟨by decide, by decide, fun _ _ => trivial, by simp, by decide, ⟨rfl, by decide, by decide, fun _ _ => trivial⟩⟩

/-- **C119** (finding) An enumeration whose value is 256 is read back as zero. -/
theorem enum_fails (h : H5 Int) : ∃ f, (enumCodec (α := Int)).write (fun p => if p = [] ∨ p = ["Def".toList] then some .group else none)
    "e".toList 256 = .ok f ∧ (enumCodec (α := Int)).read h f "e".toList = .ok 0 := by
  refine ⟨_, rfl, ?_⟩
  show readEnum h _ _ = _
  have : readScalar h (writeEnum (α := Int) (fun p => if p = [] ∨ p = ["Def".toList] then some .group else none) "e".toList 256 .no)
      "e".toList .size (.int 0) = .ok (.int 0) := by
    unfold readScalar
    have : File.openDataSet (writeEnum (α := Int) (fun p => if p = [] ∨ p = ["Def".toList] then some .group else none) "e".toList 256 .no)
      (inDef "e".toList) = .ok ⟨.uchar, [.int 0]⟩ := by decide +kernel
    rw [this]
    show Except.ok (h.cvt _ _ _) = _
    rw [h.cvt_fits _ _ _ (show (Num.int 0 : Num Int).Fits .size from ⟨by decide, by decide⟩)]
  unfold readEnum
  rw [this]
  rfl

end Verif.IoNg
