import Verif.Geom.ModelAinur
import Verif.Ainur.PropsGrammar

/-!
# C114: the labels that geometries declare for Ainur inputs
-/

namespace Verif.Geom

open Verif.Ainur

/-- Assignments of an input: labels and values, with their texts. -/
abbrev Assigns := List ((Str × Str) × Str)

/-- As statements. -/
def Assigns.stmts (l : Assigns) : List (Stmt × Str) := l.map fun e => (.assign e.1.1 e.1.2, e.2)

/-- The value of a label: the last one assigned. -/
def Assigns.last (l : Assigns) (k : Str) : Option Str := ((l.filter fun e => e.1.1 = k).getLast?).map fun e => e.1.2

/-- A label that `import()` declares. -/
def Declared (k : Str) : Prop := ∃ d, (d, k) ∈ importLabels

theorem layout_newline {st : Stmt} {t : Str} (h : Layout st t) : Layout st ('\n' :: t) := by
  have hw : white '\n' = true := by decide
  cases h with
  | assign g0 n g1 g2 v a b c d e => exact .assign ('\n' :: g0) n g1 g2 v (.space _ _ hw a) b c d e
  | declare g0 d g1 n g2 a b c e f g => exact .declare ('\n' :: g0) d g1 n g2 (.space _ _ hw a) b c e f g
  | define g0 d g1 n g2 g3 v a b c e f g h i => exact .define ('\n' :: g0) d g1 n g2 g3 v (.space _ _ hw a) b c e f g h i

/-- The declarations as statements, each but the first on a new line. -/
def importStmts : List (Stmt × Str) :=
  match importLabels with
  | [] => []
  | e :: rest => (.declare e.1 e.2, e.1 ++ ' ' :: e.2) :: rest.map fun e => (.declare e.1 e.2, '\n' :: (e.1 ++ ' ' :: e.2))

/-- The first statement of the input starts on a new line. -/
def onNewLine : List (Stmt × Str) → List (Stmt × Str)
  | [] => []
  | e :: rest => (e.1, '\n' :: e.2) :: rest

/-- A simple check of names. -/
def nameOk (n : Str) : Bool :=
  (n.takeWhile aToZ) ≠ [] && (n.dropWhile aToZ).all nameChar

theorem nameOk_spec {n : Str} (h : nameOk n = true) : IsName n := by
  unfold nameOk at h
  rw [Bool.and_eq_true, decide_eq_true_eq, List.all_eq_true] at h
  refine ⟨[], n.takeWhile aToZ, n.dropWhile aToZ, by simp [List.takeWhile_append_dropWhile], by simp, h.1, ?_, ?_⟩
  · intro c hc
    have := List.all_eq_true.1 List.all_takeWhile c hc
    simpa [aToZ, Letter] using this
  · intro c hc
    have := h.2 c hc
    simpa [nameChar, aToZ, zeroToNine, Letter, or_assoc] using this

theorem import_names : ∀ e ∈ importLabels, nameOk e.2 = true ∧ (e.1.all aToZ = true ∧ e.1 ≠ []) := by decide +kernel

theorem import_chars : ∀ c ∈ importText, allowedChar c = true := by
  have h : ∀ e ∈ importLabels, (e.1 ++ ' ' :: (e.2 ++ [';', '\n'])).all allowedChar = true := by decide +kernel
  intro c hc
  obtain ⟨e, he, hc⟩ := List.mem_flatMap.1 hc
  exact List.all_eq_true.1 (h e he) c hc

theorem import_nodup : (importLabels.map (·.2)).Nodup := by decide +kernel

theorem import_fromFile : fromFile ∉ importLabels.map (·.2) := by decide +kernel

theorem import_cons : importLabels = ("integer".toList, "TotalNumberOfSites".toList) :: importLabels.tail := by decide +kernel

theorem import_file (l : List (Stmt × Str)) (h0 : l ≠ []) (tail : Str) :
    importText ++ fileText l tail = fileText (importStmts ++ onNewLine l) tail := by
  obtain ⟨e, l, rfl⟩ := List.exists_cons_of_ne_nil h0
  unfold importText importStmts
  rw [import_cons]
  generalize importLabels.tail = L
  generalize ("integer".toList, "TotalNumberOfSites".toList) = f
  simp only [onNewLine, fileText, List.flatMap_append, List.flatMap_cons, List.flatMap_map]
  have : ∀ (f : Str × Str) (X : Str), (f.1 ++ ' ' :: (f.2 ++ [';', '\n'])) ++ (List.flatMap (fun e : Str × Str => e.1 ++ ' ' :: (e.2 ++ [';', '\n'])) L ++ X) =
      (f.1 ++ ' ' :: f.2 ++ [';']) ++ (List.flatMap (fun e : Str × Str => '\n' :: (e.1 ++ ' ' :: e.2) ++ [';']) L ++ '\n' :: X) := by
    induction L with
    | nil => intro f X; simp
    | cons g L ih =>
      intro f X
      have := ih g X
      simp only [List.flatMap_cons, List.append_assoc, List.cons_append] at this ⊢
      rw [this]
      simp
  have h2 := this f (e.2 ++ [';'] ++ List.flatMap (fun e => e.2 ++ [';']) l ++ tail)
  simp only [List.append_assoc] at h2 ⊢
  rw [h2]
  simp

theorem import_layout : ∀ e ∈ importStmts, Layout e.1 e.2 ∧ e.1.Clear := by
  have base : ∀ e ∈ importLabels, Layout (.declare e.1 e.2) (e.1 ++ ' ' :: e.2) := by
    intro e he
    obtain ⟨h1, h2, h3⟩ := import_names e he
    have hw : white ' ' = true := by decide
    have := Layout.declare [] e.1 [' '] e.2 [] .nil ⟨h3, fun c hc => Or.inl (by
      have := List.all_eq_true.1 h2 c hc
      simpa [aToZ, Letter] using this)⟩ (.space ' ' [] hw .nil) (nameOk_spec h1) (Or.inl (by simp)) .nil
    simpa using this
  unfold importStmts
  rw [import_cons] at base ⊢
  intro e he
  rcases List.mem_cons.1 he with rfl | he
  · exact ⟨base _ List.mem_cons_self, trivial⟩
  · obtain ⟨f, hf, rfl⟩ := List.mem_map.1 he
    exact ⟨layout_newline (base f (List.mem_cons_of_mem _ hf)), trivial⟩

theorem import_stmts : importStmts.map (fun e => e.1.op) = importLabels.map fun e => Op.declare e.1 e.2 ['\x00'] := by
  unfold importStmts
  rw [import_cons]
  generalize importLabels.tail = L
  rw [List.map_cons, List.map_cons, List.map_map]
  rfl

theorem answers_append (a b : List Op) : ∀ h, answers h (a ++ b) = answers h a ++ answers (a.reverse ++ h) b := by
  induction a with
  | nil => intro h; rfl
  | cons op a ih => intro h; simp [answers, ih]

/-- After declarations of different labels. -/
theorem declares_done (L : List (Str × Str)) : ∀ h : List Op, (∀ e ∈ L, valueOf h e.2 = none) → (L.map (·.2)).Nodup →
    (∀ a ∈ answers h (L.map fun e => Op.declare e.1 e.2 ['\x00']), a = .done) ∧
    ∀ k, valueOf ((L.map fun e => Op.declare e.1 e.2 ['\x00']).reverse ++ h) k =
      if k ∈ L.map (·.2) then some ['\x00'] else valueOf h k := by
  induction L with
  | nil => intro h _ _; exact ⟨by simp [answers], by simp⟩
  | cons e L ih =>
    intro h hn hd
    rw [List.map_cons, List.nodup_cons] at hd
    have he := hn e List.mem_cons_self
    have hval : ∀ k, valueOf (Op.declare e.1 e.2 ['\x00'] :: h) k = if k = e.2 then some ['\x00'] else valueOf h k := by
      intro k
      rw [valueOf]
      by_cases hk : k = e.2
      · subst hk
        rw [if_pos ⟨rfl, he⟩, if_pos rfl]
      · rw [if_neg (fun hh => hk hh.1.symm), if_neg hk]
    obtain ⟨i1, i2⟩ := ih (Op.declare e.1 e.2 ['\x00'] :: h) (by
      intro f hf
      rw [hval, if_neg]
      · exact hn f (List.mem_cons_of_mem _ hf)
      · rintro hh
        exact hd.1 (hh ▸ List.mem_map_of_mem hf)) hd.2
    constructor
    · intro a ha
      rw [List.map_cons, answers] at ha
      rcases List.mem_cons.1 ha with rfl | ha
      · rw [answer, if_pos he]
      · exact i1 a ha
    · intro k
      rw [List.map_cons, List.reverse_cons, List.append_assoc, List.singleton_append, i2, hval]
      by_cases hk : k = e.2
      · subst hk
        simp
      · rw [if_neg hk, List.map_cons]
        exact if_congr ⟨fun h => List.mem_cons_of_mem _ h, fun h => (List.mem_cons.1 h).resolve_left hk⟩ rfl rfl

/-- After assignments. -/
theorem assigns_done (l : Assigns) : ∀ h : List Op, (∀ e ∈ l, valueOf h e.1.1 ≠ none) →
    (∀ a ∈ answers h (l.stmts.map fun e => e.1.op), a = .done) ∧
    ∀ k, valueOf ((l.stmts.map fun e => e.1.op).reverse ++ h) k = ((l.last k).orElse fun _ => valueOf h k) := by
  induction l with
  | nil => intro h _; exact ⟨by simp [answers, Assigns.stmts], by simp [Assigns.stmts, Assigns.last]⟩
  | cons e l ih =>
    intro h hd
    have he := hd e List.mem_cons_self
    have hval : ∀ k, valueOf (Op.assign e.1.1 e.1.2 :: h) k = if k = e.1.1 then some e.1.2 else valueOf h k := by
      intro k
      rw [valueOf]
      by_cases hk : k = e.1.1
      · subst hk
        rw [if_pos ⟨rfl, he⟩, if_pos rfl]
      · rw [if_neg (fun hh => hk hh.1.symm), if_neg hk]
    obtain ⟨i1, i2⟩ := ih (Op.assign e.1.1 e.1.2 :: h) (by
      intro f hf
      rw [hval]
      split
      · simp
      · exact hd f (List.mem_cons_of_mem _ hf))
    have hs : (Assigns.stmts (e :: l)).map (fun e => e.1.op) = Op.assign e.1.1 e.1.2 :: (Assigns.stmts l).map fun e => e.1.op := rfl
    rw [hs]
    constructor
    · intro a ha
      rw [answers] at ha
      rcases List.mem_cons.1 ha with rfl | ha
      · rw [answer, if_neg he]
      · exact i1 a ha
    · intro k
      rw [List.reverse_cons, List.append_assoc, List.singleton_append, i2, hval]
      unfold Assigns.last
      by_cases hk : k = e.1.1
      · subst hk
        rw [List.filter_cons_of_pos (by simp), if_pos rfl]
        cases hf : (l.filter fun x => x.1.1 = e.1.1).getLast? with
        | none =>
          rw [List.getLast?_eq_none_iff] at hf
          rw [hf]
          simp
        | some y => simp [List.getLast?_cons, hf]
      · rw [List.filter_cons_of_neg (by simpa using fun hh => hk hh.symm), if_neg hk]

theorem stmts_onNewLine (l : List (Stmt × Str)) : (onNewLine l).map (fun e => e.1.op) = l.map fun e => e.1.op := by
  cases l <;> rfl

theorem fileText_allowed (l : List (Stmt × Str)) (h0 : l ≠ []) (tail : Str) (h : ∀ c ∈ fileText l tail, Allowed c) :
    ∀ c ∈ fileText (importStmts ++ onNewLine l) tail, Allowed c := by
  rw [← import_file l h0 tail]
  intro c hc
  rcases List.mem_append.1 hc with hc | hc
  · have : lexical importText = .ok () := by
      unfold lexical
      rw [if_pos (List.all_eq_true.2 import_chars)]
    by_contra hn
    rw [(lexical_iff _).2 (fun h => hn (h c hc))] at this
    cases this
  · exact h c hc

/-- The input that follows the declarations: assignments that can be read in one way only, with values that are neither functions
nor macros. -/
structure InputOk (l : Assigns) (tail : Str) : Prop where
  nonempty : l ≠ []
  layout : ∀ e ∈ l.stmts, Layout e.1 e.2 ∧ e.1.Clear
  gap : Gap tail
  chars : ∀ c ∈ fileText l.stmts tail, Allowed c
  plain : ∀ e ∈ l.stmts, e.1.op.Plain ∧ e.1.op.NoMacro

theorem file_ops (l : Assigns) : fileOps (importStmts ++ onNewLine l.stmts) =
    (importLabels.map fun e => Op.declare e.1 e.2 ['\x00']) ++ ((l.stmts.map fun e => e.1.op) ++
      [.declare "function".toList fromFile ('!' :: fromFile)]) := by
  unfold fileOps
  rw [List.map_append, import_stmts, stmts_onNewLine, List.append_assoc]

theorem import_run (fs : Files) (l : Assigns) (tail : Str) (hl : InputOk l tail) :
    ((∀ a ∈ answers [] (fileOps (importStmts ++ onNewLine l.stmts)), a = .done) →
      ∃ s, ainur fs (importText ++ fileText l.stmts tail) = .ok s ∧ ∀ ops : List Op, (∀ o ∈ ops, o.Plain) →
        ∃ s', runOps fs s ops = .ok (answers (fileOps (importStmts ++ onNewLine l.stmts)).reverse ops, s')) ∧
    ((∃ a ∈ answers [] (fileOps (importStmts ++ onNewLine l.stmts)), a ≠ .done) →
      ainur fs (importText ++ fileText l.stmts tail) = throwOut) := by
  have h0 : l.stmts ≠ [] := by
    intro h
    unfold Assigns.stmts at h
    exact hl.nonempty (List.map_eq_nil_iff.1 h)
  have hon : ∀ e ∈ onNewLine l.stmts, ∃ f ∈ l.stmts, e.1 = f.1 ∧ (e.2 = f.2 ∨ e.2 = '\n' :: f.2) := by
    intro e he
    cases hs : l.stmts with
    | nil => rw [hs] at he; cases he
    | cons f rest =>
      rw [hs] at he
      rcases List.mem_cons.1 he with rfl | he
      · exact ⟨f, List.mem_cons_self, rfl, Or.inr rfl⟩
      · exact ⟨e, List.mem_cons_of_mem _ he, rfl, Or.inl rfl⟩
  have key := file_values fs (importStmts ++ onNewLine l.stmts) tail (by
      intro h
      have h1 := List.append_eq_nil_iff.1 h
      exact h0 (by cases hs : l.stmts with | nil => rfl | cons f r => rw [hs] at h1; cases h1.2)) (by
      intro e he
      rcases List.mem_append.1 he with he | he
      · exact import_layout e he
      · obtain ⟨f, hf, e1, e2⟩ := hon e he
        obtain ⟨a, b⟩ := hl.layout f hf
        rw [e1]
        refine ⟨?_, b⟩
        rcases e2 with e2 | e2
        · rw [e2]; exact a
        · rw [e2]; exact layout_newline a) hl.gap (fileText_allowed _ h0 _ hl.chars) (by
      intro e he
      rcases List.mem_append.1 he with he | he
      · have : e.1.op ∈ importStmts.map fun e => e.1.op := List.mem_map_of_mem (f := fun e : Stmt × Str => e.1.op) he
        rw [import_stmts] at this
        obtain ⟨x, _, hx⟩ := List.mem_map.1 this
        rw [← hx]
        exact ⟨by simp [Op.Plain], by simp [Op.NoMacro]⟩
      · obtain ⟨f, hf, e1, e2⟩ := hon e he
        rw [e1]
        exact hl.plain f hf)
  rw [import_file l.stmts h0 tail]
  refine ⟨fun h => ?_, key.2⟩
  obtain ⟨s, h1, h2⟩ := key.1 h
  exact ⟨s, h1, fun ops ho => (h2 ops ho).imp fun s' hs => hs.1⟩

/-- **C114** An input that assigns labels that `import()` declares, each as often as it likes, is accepted, and each of these labels
is then read with the last value assigned to it, without enclosing quotes; labels that are not assigned cannot be read. -/
theorem import_values (fs : Files) (l : Assigns) (tail : Str) (hl : InputOk l tail) (hd : ∀ e ∈ l, Declared e.1.1) :
    ∃ s, ainur fs (importText ++ fileText l.stmts tail) = .ok s ∧ ∀ k, k ≠ fromFile →
      ∃ s', runOps fs s [.read k] = .ok ([match l.last k with
        | none => .refused
        | some v => if NoValue v then .refused else .value (strip v)], s') := by
  obtain ⟨d1, d2⟩ := declares_done importLabels [] (fun _ _ => rfl) import_nodup
  obtain ⟨a1, a2⟩ := assigns_done l ((importLabels.map fun e => Op.declare e.1 e.2 ['\x00']).reverse ++ []) (by
    intro e he
    obtain ⟨d, hd⟩ := hd e he
    rw [d2, if_pos (List.mem_map.2 ⟨(d, e.1.1), hd, rfl⟩)]
    simp)
  have hlast : ∀ k v, l.last k = some v → Declared k := by
    intro k v hk
    unfold Assigns.last at hk
    obtain ⟨e, he, -⟩ := Option.map_eq_some_iff.1 hk
    have he' := List.mem_of_getLast? he
    rw [List.mem_filter] at he'
    have := hd e he'.1
    rwa [of_decide_eq_true he'.2] at this
  have hff : l.last fromFile = none := by
    cases h : l.last fromFile with
    | none => rfl
    | some v =>
      obtain ⟨d, hd⟩ := hlast _ _ h
      exact absurd (List.mem_map.2 ⟨_, hd, rfl⟩) import_fromFile
  have hdone : ∀ a ∈ answers [] (fileOps (importStmts ++ onNewLine l.stmts)), a = .done := by
    rw [file_ops, answers_append, answers_append]
    intro a ha
    rcases List.mem_append.1 ha with ha | ha
    · exact d1 a ha
    · rcases List.mem_append.1 ha with ha | ha
      · exact a1 a ha
      · rw [answers, answer, a2, d2, hff, if_neg import_fromFile] at ha
        simpa [valueOf, answers] using ha
  obtain ⟨s, h1, h2⟩ := (import_run fs l tail hl).1 hdone
  refine ⟨s, h1, ?_⟩
  intro k hk
  obtain ⟨s', h3⟩ := h2 [.read k] (by simp [Op.Plain])
  refine ⟨s', ?_⟩
  rw [h3, file_ops]
  have hv : valueOf ((importLabels.map fun e => Op.declare e.1 e.2 ['\x00']) ++ ((l.stmts.map fun e => e.1.op) ++
      [Op.declare "function".toList fromFile ('!' :: fromFile)])).reverse k =
      ((l.last k).orElse fun _ => if k ∈ importLabels.map (·.2) then some ['\x00'] else none) := by
    rw [List.reverse_append, List.reverse_append, List.append_assoc, List.reverse_singleton, List.singleton_append, valueOf,
      if_neg (fun hh => hk hh.1.symm)]
    have := a2 k
    rw [List.append_nil] at this
    rw [this]
    have := d2 k
    rw [List.append_nil] at this
    rw [this]
    rfl
  have hans : ∀ h : List Op, answers h [.read k] = [match valueOf h k with
      | none => .refused
      | some v => if NoValue v then .refused else .value (strip v)] := fun h => by
    rw [answers, answers, answer]
    rfl
  rw [hans, hv]
  cases h : l.last k with
  | some v => rfl
  | none =>
    by_cases hm : k ∈ importLabels.map (·.2)
    · rw [if_pos hm]
      rfl
    · rw [if_neg hm]
      rfl

/-- **C114** An input that assigns a label that is not declared is refused. -/
theorem import_refused (fs : Files) (l : Assigns) (tail : Str) (hl : InputOk l tail) (e : (Str × Str) × Str) (he : e ∈ l)
    (hd : ¬ Declared e.1.1) : ainur fs (importText ++ fileText l.stmts tail) = throwOut := by
  refine (import_run fs l tail hl).2 ?_
  obtain ⟨l1, l2, rfl⟩ := List.append_of_mem he
  obtain ⟨d1, d2⟩ := declares_done importLabels [] (fun _ _ => rfl) import_nodup
  rw [file_ops, answers_append]
  have hs : Assigns.stmts (l1 ++ e :: l2) = Assigns.stmts l1 ++ (.assign e.1.1 e.1.2, e.2) :: Assigns.stmts l2 := by
    simp [Assigns.stmts]
  refine ⟨.refused, List.mem_append_right _ ?_, by simp⟩
  rw [hs, List.map_append, List.append_assoc, answers_append]
  refine List.mem_append_right _ ?_
  rw [List.map_cons, List.cons_append, answers]
  refine List.mem_cons.2 (Or.inl ?_)
  have hnone : ∀ (m : Assigns) (h : List Op) (k : Str), valueOf h k = none →
      valueOf ((m.stmts.map fun e => e.1.op).reverse ++ h) k = none := by
    intro m
    induction m with
    | nil => intro h k hk; exact hk
    | cons f m ih =>
      intro h k hk
      have : (Assigns.stmts (f :: m)).map (fun e => e.1.op) = Op.assign f.1.1 f.1.2 :: (Assigns.stmts m).map fun e => e.1.op := rfl
      rw [this, List.reverse_cons, List.append_assoc, List.singleton_append]
      refine ih _ k ?_
      rw [valueOf, if_neg (fun hh => hh.2 hk), hk]
  have : valueOf (((Assigns.stmts l1).map fun e => e.1.op).reverse ++ ((importLabels.map fun e => Op.declare e.1 e.2 ['\x00']).reverse ++ [])) e.1.1 = none := by
    refine hnone l1 _ _ ?_
    rw [d2, if_neg]
    · rfl
    · intro hm
      obtain ⟨x, hx, hx2⟩ := List.mem_map.1 hm
      exact hd ⟨x.1, by rw [← hx2]; exact hx⟩
  show Ans.refused = (if _ = none then Ans.refused else Ans.done)
  exact (if_pos this).symm

/-- **C114** What is declared: the labels of up to nine numbered terms and of a term without number, with up to nine directions. -/
theorem declared_iff (k : Str) : Declared k ↔ k = "TotalNumberOfSites".toList ∨ k = "NumberOfTerms".toList ∨
    ∃ p, (p = [] ∨ ∃ i, i < 9 ∧ p = "gt".toList ++ Nat.toDigits 10 i ++ [':']) ∧
      ((∃ n ∈ ["DegreesOfFreedom".toList, "GeometryKind".toList, "GeometryOptions".toList, "LadderLeg".toList,
        "LongChainDistance".toList, "BathSitesPerSite".toList, "GeometryValueModifier".toList], k = p ++ n) ∨
      ∃ j, j < 9 ∧ k = p ++ ("dir".toList ++ Nat.toDigits 10 j ++ ":Connectors".toList)) := by
  have hdir : ∀ j, dirPrefix j ++ "Connectors".toList = "dir".toList ++ Nat.toDigits 10 j ++ ":Connectors".toList := by
    intro j
    unfold dirPrefix
    rw [List.append_assoc]
    rfl
  have hterm : ∀ p, (∃ d, (d, k) ∈ importTerm p) ↔
      ((∃ n ∈ ["DegreesOfFreedom".toList, "GeometryKind".toList, "GeometryOptions".toList, "LadderLeg".toList,
        "LongChainDistance".toList, "BathSitesPerSite".toList, "GeometryValueModifier".toList], k = p ++ n) ∨
      ∃ j, j < 9 ∧ k = p ++ ("dir".toList ++ Nat.toDigits 10 j ++ ":Connectors".toList)) := by
    intro p
    unfold importTerm
    simp only [hdir, List.mem_append, List.mem_map, List.mem_range, List.mem_cons, Prod.mk.injEq, List.not_mem_nil, or_false]
    constructor
    · rintro ⟨d, h | ⟨j, hj, -, rfl⟩⟩
      · left
        rcases h with ⟨-, h⟩ | ⟨-, h⟩ | ⟨-, h⟩ | ⟨-, h⟩ | ⟨-, h⟩ | ⟨-, h⟩ | ⟨-, h⟩ <;> exact ⟨_, by simp, h⟩
      · exact Or.inr ⟨j, hj, rfl⟩
    · rintro (⟨n, h, rfl⟩ | ⟨j, hj, rfl⟩)
      · rcases h with rfl | rfl | rfl | rfl | rfl | rfl | rfl
        · exact ⟨_, Or.inl (Or.inl ⟨rfl, rfl⟩)⟩
        · exact ⟨_, Or.inl (Or.inr (Or.inl ⟨rfl, rfl⟩))⟩
        · exact ⟨_, Or.inl (Or.inr (Or.inr (Or.inl ⟨rfl, rfl⟩)))⟩
        · exact ⟨_, Or.inl (Or.inr (Or.inr (Or.inr (Or.inl ⟨rfl, rfl⟩))))⟩
        · exact ⟨_, Or.inl (Or.inr (Or.inr (Or.inr (Or.inr (Or.inl ⟨rfl, rfl⟩)))))⟩
        · exact ⟨_, Or.inl (Or.inr (Or.inr (Or.inr (Or.inr (Or.inr (Or.inl ⟨rfl, rfl⟩))))))⟩
        · exact ⟨_, Or.inl (Or.inr (Or.inr (Or.inr (Or.inr (Or.inr (Or.inr ⟨rfl, rfl⟩))))))⟩
      · exact ⟨_, Or.inr ⟨j, hj, rfl, rfl⟩⟩
  have hall : Declared k ↔ k = "TotalNumberOfSites".toList ∨ k = "NumberOfTerms".toList ∨
      ∃ i, i < 10 ∧ ∃ d, (d, k) ∈ importTerm (if i + 1 < 10 then "gt".toList ++ Nat.toDigits 10 i ++ [':'] else []) := by
    unfold Declared importLabels
    simp only [List.mem_append, List.mem_flatMap, List.mem_range, List.mem_cons, Prod.mk.injEq, List.not_mem_nil, or_false]
    constructor
    · rintro ⟨d, (⟨-, h⟩ | ⟨-, h⟩) | ⟨i, hi, h⟩⟩
      · exact Or.inl h
      · exact Or.inr (Or.inl h)
      · exact Or.inr (Or.inr ⟨i, hi, d, h⟩)
    · rintro (h | h | ⟨i, hi, d, h⟩)
      · exact ⟨_, Or.inl (Or.inl ⟨rfl, h⟩)⟩
      · exact ⟨_, Or.inl (Or.inr ⟨rfl, h⟩)⟩
      · exact ⟨d, Or.inr ⟨i, hi, h⟩⟩
  rw [hall]
  refine or_congr Iff.rfl (or_congr Iff.rfl ?_)
  constructor
  · rintro ⟨i, hi, h⟩
    refine ⟨_, ?_, (hterm _).1 h⟩
    by_cases h9 : i + 1 < 10
    · rw [if_pos h9]
      exact Or.inr ⟨i, by omega, rfl⟩
    · rw [if_neg h9]
      exact Or.inl rfl
  · rintro ⟨p, hp, h⟩
    rcases hp with rfl | ⟨i, hi, rfl⟩
    · exact ⟨9, by omega, by rw [if_neg (by omega)]; exact (hterm _).2 h⟩
    · exact ⟨i, by omega, by rw [if_pos (by omega)]; exact (hterm _).2 h⟩

instance (k : Str) : Decidable (Declared k) :=
  decidable_of_iff (k ∈ importLabels.map (·.2))
    ⟨fun h => by obtain ⟨x, hx, rfl⟩ := List.mem_map.1 h; exact ⟨x.1, hx⟩, fun ⟨d, h⟩ => List.mem_map.2 ⟨_, h, rfl⟩⟩

/-- **C114** (finding) Not all labels that geometries read are declared: not the flags for periodic chains and ladders, nor the
labels of `ktwoniffour`, `Honeycomb` and `LongRange`, nor numbered matrices, nor those of a tenth term.  An input has to declare them
by itself. -/
theorem import_fails : ¬ Declared "IsPeriodicX".toList ∧ ¬ Declared "IsPeriodicY".toList ∧ ¬ Declared "gt0:IsPeriodicX".toList ∧
    ¬ Declared "SignChange".toList ∧ ¬ Declared "HoneycombLy".toList ∧ ¬ Declared "GeometryMaxConnections".toList ∧
    ¬ Declared "GeometryEntangler".toList ∧ ¬ Declared "Connectors".toList ∧ ¬ Declared "dir0:Connectors0".toList ∧
    ¬ Declared "gt9:GeometryKind".toList := by decide +kernel

/-! ## Example -/

/-- Two lines. -/
def exInput : Assigns := [(("TotalNumberOfSites".toList, "8".toList), "TotalNumberOfSites=8".toList),
  (("GeometryKind".toList, "\"chain\"".toList), "\nGeometryKind=\"chain\"".toList)]

theorem no_splits {n : Str} (h : '_' ∉ n) (a b : Str) : ¬ Splits n a b := by
  rintro ⟨u, c, r, rfl, rfl, _, _, hu, hx, _⟩
  obtain ⟨x, u, rfl⟩ := List.exists_cons_of_ne_nil hu
  exact h (by rw [hx x List.mem_cons_self]; simp)

theorem exInput_ok : InputOk exInput "\n".toList where
  nonempty := by decide
  layout := by
    have h1 : IsName "TotalNumberOfSites".toList := nameOk_spec (by decide +kernel)
    have h2 : IsName "GeometryKind".toList := nameOk_spec (by decide +kernel)
    intro e he
    rcases List.mem_cons.1 he with rfl | he
    · exact ⟨Layout.assign [] _ [] [] _ .nil h1 .nil .nil ⟨by decide, by decide⟩,
        ⟨no_splits (by decide +kernel), by intro c hc; simp at hc; subst hc; decide⟩⟩
    · rcases List.mem_cons.1 he with rfl | he
      · exact ⟨layout_newline (Layout.assign [] _ [] [] _ .nil h2 .nil .nil ⟨by decide, by decide⟩),
          ⟨no_splits (by decide +kernel), by intro c hc; simp at hc; subst hc; decide⟩⟩
      · cases he
  gap := .space _ _ (by decide) .nil
  chars := by
    have : ∀ c ∈ fileText exInput.stmts "\n".toList, allowedChar c = true := by decide +kernel
    intro c hc
    by_contra hn
    have h2 : lexical (fileText exInput.stmts "\n".toList) = .ok () := by
      unfold lexical
      rw [if_pos (List.all_eq_true.2 this)]
    rw [(lexical_iff _).2 (fun h => hn (h c hc))] at h2
    cases h2
  plain := by
    intro e he
    rcases List.mem_cons.1 he with rfl | he
    · exact ⟨by simp [Stmt.op, Op.Plain], by simp [Stmt.op, Op.NoMacro]⟩
    · rcases List.mem_cons.1 he with rfl | he
      · exact ⟨by simp [Stmt.op, Op.Plain], by simp [Stmt.op, Op.NoMacro]⟩
      · cases he

example : (∀ e ∈ exInput, Declared e.1.1) ∧ exInput.last "GeometryKind".toList = some "\"chain\"".toList ∧
    strip "\"chain\"".toList = "chain".toList := by decide +kernel

end Verif.Geom
