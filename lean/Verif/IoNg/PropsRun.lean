import Verif.IoNg.ModelRun
import Verif.IoNg.PropsGroup

/-!
# C147: the record of a run in a file
-/

namespace Verif.IoNg

variable {α : Type} [DecidableEq α]

/-- The members that are written at the start. -/
def startFields : Fields α (Str × Str × Nat × Unit) :=
  .cons "Name".toList stringCodec (.cons "RunId".toList stringCodec (.cons "UnixTimeStart".toList sizeCodec .nil))

/-- A text that can be stored. -/
def Storable (s : Str) : Prop := s ≠ [] ∧ ∀ c ∈ s, c.toNat < 128

theorem start_lawful [Zero α] : (startFields (α := α)).Lawful (fun x => Storable x.1 ∧ Storable x.2.1 ∧ x.2.2.1 < 2 ^ 64 ∧ True) := by
  refine (cons_lawful _ _ _ _ _ string_lawful (cons_lawful _ _ _ _ _ string_lawful
    (cons_lawful _ _ _ _ _ size_lawful nil_lawful ?_ ?_ ?_) ?_ ?_ ?_) ?_ ?_ ?_)
  all_goals first | exact ⟨by decide, by decide⟩ | decide +kernel | (simp only [Fields.nil, Fields.cons]; decide +kernel)

theorem write_start (a : AppInfo) (h : a.isFinalized = false) (time : Nat) (f : File α) (label : Str) :
    a.write time f label = (group startFields).write f label (a.name, a.runId, time, ()) := by
  unfold AppInfo.write
  rw [h]
  rfl

/-- What the file says of a run. -/
structure Recorded (h : H5 α) (f : File α) (label name runId : Str) (start : Nat) : Prop where
  name : readString h f (label ++ "/Name".toList) = .ok name
  runId : readString h f (label ++ "/RunId".toList) = .ok runId
  start : sizeCodec.read h f (label ++ "/UnixTimeStart".toList) = .ok start

theorem recorded_of (h : H5 α) (f : File α) (label name runId : Str) (start : Nat)
    (e : (group startFields).read h f label = .ok (name, runId, start, ())) : Recorded h f label name runId start := by
  obtain ⟨a, r1, r⟩ := bind_inv e
  obtain ⟨b, r2, r⟩ := bind_inv r
  cases r
  obtain ⟨c, r3, r2⟩ := bind_inv r2
  obtain ⟨d, r4, r2⟩ := bind_inv r2
  cases r2
  obtain ⟨e, r5, r4⟩ := bind_inv r4
  obtain ⟨_, _, r4⟩ := bind_inv r4
  cases r4
  exact ⟨r1, r3, r5⟩

theorem foot_end (n : Name) (w : Str) (hw : w ∈ (startFields (α := α)).labels) (q : Path) (h1 : Foot (n ++ [w]) q)
    (h2 : Foot (n ++ ["UnixTimeEnd".toList]) q) : False := by
  refine foot_disjoint n w "UnixTimeEnd".toList ?_ (by decide) ?_ q h1 h2
  all_goals
    have hw' : w ∈ ["Name".toList, "RunId".toList, "UnixTimeStart".toList] := hw
    revert hw'
    clear h1 h2 hw
    simp only [List.mem_cons, List.not_mem_nil, or_false]
    rintro (rfl | rfl | rfl) <;> decide

theorem end_part : IsPart "UnixTimeEnd".toList := ⟨by decide, by decide⟩

/-- **C147** A program writes the record of its run under a new name, then other things elsewhere, then, after `finalize`, the record
again: the file then has the name of the program, the identifier of the run and the times of the start and of the end; until then there is
no time of the end.  Nothing else is changed. -/
theorem run_recorded [Zero α] (name runId : Str) (h1 : Storable name) (h2 : Storable runId) (start stop : Nat) (h3 : start < 2 ^ 64)
    (h4 : stop < 2 ^ 64) (f : File α) (n : Name) (h0 : n ≠ []) (hn : ∀ w ∈ n, IsPart w)
    (hpar : f ("Def".toList :: n).dropLast = some .group) (hfree : ∀ q, Foot n q → f q = none) :
    ∃ f1, (AppInfo.mk' name runId).write start f n.text = .ok f1 ∧ (∀ q, ¬ Foot n q → f1 q = f q) ∧
      (∀ h, Recorded h f1 n.text name runId start ∧ sizeCodec.read h f1 (n.text ++ "/UnixTimeEnd".toList) = throwOut) ∧
      ∀ g : File α, (∀ q, Foot n q → g q = f1 q) →
        ∃ f2, (AppInfo.mk' name runId).finalize.write stop g n.text = .ok f2 ∧ (∀ q, ¬ Foot n q → f2 q = g q) ∧
          ∀ h, Recorded h f2 n.text name runId start ∧ sizeCodec.read h f2 (n.text ++ "/UnixTimeEnd".toList) = .ok stop := by
  have hbelow : ∀ w q, Foot (n ++ [w]) q → Foot n q := fun w q hq => .inl (foot_below n w q hq).1
  have hself : ∀ w, ¬ Foot (n ++ [w]) ("Def".toList :: n) := fun w hq => (foot_below n w _ hq).2 rfl
  obtain ⟨f1, a1, a2, a3⟩ := start_lawful.writes (f.set ("Def".toList :: n) (some .group)) n (name, runId, start, ()) h0 hn
    ⟨h1, h2, h3, trivial⟩ (set_same _ _ _)
    (fun w _ q hq => by rw [set_other _ _ _ _ (foot_below n _ q hq).2]; exact hfree q (hbelow _ q hq))
  have hend : ∀ q, Foot (n ++ ["UnixTimeEnd".toList]) q → f1 q = none := by
    intro q hq
    rw [a2 q (fun w hw hq' => foot_end n w hw q hq' hq), set_other _ _ _ _ (foot_below n _ q hq).2]
    exact hfree q (hbelow _ q hq)
  have hgr : f1 ("Def".toList :: n) = some .group := by
    rw [a2 _ (fun w _ => hself w), set_same]
  have etxt : n.text ++ "/UnixTimeEnd".toList = Name.text (n ++ ["UnixTimeEnd".toList]) := (text_concat n _ h0).symm
  refine ⟨f1, ?_, ?_, fun h => ⟨recorded_of h f1 _ _ _ _ (a3 h), ?_⟩, ?_⟩
  · rw [write_start _ rfl]
    unfold group
    simp only [createGroup_ok f n h0 hn hpar (hfree _ (foot_self n)), bind, Except.bind]
    exact a1
  · intro q hq
    rw [a2 q (fun w _ hq' => hq (hbelow _ q hq')), set_other _ _ _ _ (by rintro rfl; exact hq (foot_self n))]
  · unfold sizeCodec readScalar
    simp only
    rw [etxt, openDataSet_eq f1 _ _ (path_inDef _ (by simp) (parts_concat hn end_part)), hend _ (foot_self _)]
    rfl
  · intro g hg
    obtain ⟨f2, b1, b2, b3⟩ := (size_lawful (α := α)).writes g (n ++ ["UnixTimeEnd".toList]) stop (by simp) (parts_concat hn end_part) h4
      (by rw [dropLast_concat', hg _ (foot_self n), hgr]) (fun q hq => by rw [hg q (hbelow _ q hq)]; exact hend q hq)
    refine ⟨f2, ?_, ?_, fun h => ⟨recorded_of h f2 _ _ _ _ ?_, ?_⟩⟩
    · rw [← etxt] at b1
      exact b1
    · intro q hq
      exact b2 q fun hq' => hq (hbelow _ q hq')
    · rw [← a3 h]
      refine start_lawful.local_ h f2 f1 n h0 hn fun w hw q hq => ?_
      rw [b2 q (fun hq' => foot_end n w hw q hq hq'), hg q (hbelow _ q hq)]
    · rw [etxt]
      exact b3 h

/-- **C147** A record of the start under a name that is taken is refused. -/
theorem start_again_refused (a : AppInfo) (ha : a.isFinalized = false) (time : Nat) (f : File α) (n : Name) (h0 : n ≠ [])
    (hn : ∀ w ∈ n, IsPart w) (h : f ("Def".toList :: n) ≠ none) : a.write time f n.text = throwOut := by
  unfold AppInfo.write createGroup File.createGroup
  rw [ha]
  simp only [path_inDef n h0 hn]
  rw [if_neg (show ¬ ("Def".toList :: n ≠ [] ∧ f ("Def".toList :: n) = none ∧ f ("Def".toList :: n).dropLast = some .group) from
    fun hc => h hc.2.1)]
  rfl

/-- **C147** (finding) The time of the end is lost, and nothing is thrown, if there is no record of the start, or if there is already a
time of the end. -/
theorem end_lost_fails (a : AppInfo) (ha : a.isFinalized = true) (time : Nat) (f : File α) (n : Name) (h0 : n ≠ [])
    (hn : ∀ w ∈ n, IsPart w) (h : f ("Def".toList :: n) = none ∨ f ("Def".toList :: (n ++ ["UnixTimeEnd".toList])) ≠ none) :
    a.write time f n.text = .ok f := by
  have etxt : n.text ++ "/UnixTimeEnd".toList = Name.text (n ++ ["UnixTimeEnd".toList]) := (text_concat n _ h0).symm
  unfold AppInfo.write
  rw [ha, if_pos rfl, etxt]
  unfold writeScalar put
  simp only
  rw [internalWrite_eq f _ _ _ (path_inDef _ (by simp) (parts_concat hn end_part)) (by simp), dropLast_concat', if_neg]
  rintro ⟨e1, e2⟩
  rcases h with h | h
  · rw [h] at e1; cases e1
  · exact h e2

/-- A run of ten seconds in a new file, recorded twice in the end: the second time is lost. -/
example : Storable "dmrg".toList ∧ Storable "12345".toList ∧
    (let a := AppInfo.mk' "dmrg".toList "12345".toList
     let f : File Int := fun p => if p = [] ∨ p = ["Def".toList] then some .group else none
     let r := do
      let f ← a.write 1000 f "ApplicationInfo".toList
      let f ← a.finalize.write 1010 f "ApplicationInfo".toList
      a.finalize.write 1020 f "ApplicationInfo".toList
     r.map fun f => (f ["Def".toList, "ApplicationInfo".toList, "UnixTimeStart".toList],
      f ["Def".toList, "ApplicationInfo".toList, "UnixTimeEnd".toList])) =
      .ok (some (.data ⟨.size, [.int 1000]⟩), some (.data ⟨.size, [.int 1010]⟩)) := by
  refine ⟨⟨by decide, by decide⟩, ⟨by decide, by decide⟩, ?_⟩
  decide +kernel

end Verif.IoNg
