import Verif.InputNg.Lemmas
import Mathlib.Tactic.IntervalCases

/-!
# C47: repeated labels of an input file are read one after the other
-/

namespace Verif.InputNg

open Verif.Str Verif.StrUtil

/-! ## Parsing -/

/-- Feeding characters to the parser. -/
def feed (chk : Check) (p : Parser) (s : Str) : Out Parser := s.foldlM (parseChar chk) p

theorem feed_append (chk : Check) (p q : Parser) (s t : Str) (h : feed chk p s = .ok q) :
    feed chk p (s ++ t) = feed chk q t := by
  unfold feed at h ⊢
  rw [List.foldlM_append, h]
  rfl

theorem feed_cons (chk : Check) (p q : Parser) (c : Char) (t : Str) (h : parseChar chk p c = .ok q) :
    feed chk p (c :: t) = feed chk q t := by
  unfold feed
  rw [List.foldlM_cons, h]
  rfl

theorem number_type (c : Char) (h : NumberChar c) : findTypeOf c = .numeric := by
  revert c
  unfold NumberChar
  decide

theorem letter_type (c : Char) (h : Plain c) (hn : ¬ NumberChar c) : findTypeOf c = .alpha := by
  unfold Plain at h
  simp only [List.mem_cons, List.not_mem_nil, or_false, not_or] at h
  obtain ⟨h1, h2, h3, h4, h5⟩ := h
  have hd : ¬ (48 ≤ c.toNat ∧ c.toNat ≤ 58) := by
    intro hd
    apply hn
    have e : c = Char.ofNat c.toNat := (Char.ofNat_toNat c).symm
    generalize c.toNat = n at hd e
    subst e
    obtain ⟨ha, hb⟩ := hd
    unfold NumberChar
    interval_cases n <;> decide
  have hm : ∀ d ∈ "0123456789:.+-(),".toList, c ≠ d := fun d hd' e => hn (e ▸ hd')
  have h6 := hm '.' (by decide)
  have h7 := hm '+' (by decide)
  have h8 := hm '-' (by decide)
  have h9 := hm '(' (by decide)
  have h10 := hm ')' (by decide)
  have h11 := hm ',' (by decide)
  simp [findTypeOf, h1, h2, h3, h4, h5, hd, h6, h7, h8, h9, h10, h11]

theorem plain_type (c : Char) (h : Plain c) : findTypeOf c = .alpha ∨ findTypeOf c = .numeric := by
  by_cases hn : NumberChar c
  · exact .inr (number_type c hn)
  · exact .inl (letter_type c h hn)

theorem number_plain (c : Char) (h : NumberChar c) : Plain c := by
  revert c
  unfold NumberChar Plain
  decide

theorem parse_plain (chk : Check) (p : Parser) (c : Char) (h1 : p.state ≠ .inComment)
    (h2 : p.state ≠ .inValueOrLabel) (hc : Plain c) :
    parseChar chk p c = .ok { p with buffer := p.buffer ++ [c] } := by
  unfold parseChar
  rcases plain_type c hc with hc | hc <;> simp [hc, h1, h2, bind, Except.bind]

theorem feed_plain (chk : Check) (p : Parser) (w : Str) (h1 : p.state ≠ .inComment)
    (h2 : p.state ≠ .inValueOrLabel) (hw : ∀ c ∈ w, Plain c) :
    feed chk p w = .ok { p with buffer := p.buffer ++ w } := by
  induction w generalizing p with
  | nil => simp [feed]; rfl
  | cons c w ih =>
    rw [feed_cons chk p _ c w (parse_plain chk p c h1 h2 (hw c (by simp))),
      ih { p with buffer := p.buffer ++ [c] } h1 h2 (fun d hd => hw d (by simp [hd]))]
    simp

theorem eq_type : findTypeOf '=' = .equalSign := by decide

theorem feed_value (chk : Check) (p : Parser) (w : Str) (h1 : p.state = .inValueText) (hb : p.buffer ≠ [])
    (hw : ∀ c ∈ w, Plain c ∨ c = '=') :
    feed chk p w = .ok { p with buffer := p.buffer ++ w } := by
  induction w generalizing p with
  | nil => simp [feed]; rfl
  | cons c w ih =>
    have hstep : parseChar chk p c = .ok { p with buffer := p.buffer ++ [c] } := by
      rcases hw c (by simp) with hc | rfl
      · exact parse_plain chk p c (by rw [h1]; decide) (by rw [h1]; decide) hc
      · simp [parseChar, eq_type, h1, hb]
    rw [feed_cons chk p _ c w hstep,
      ih { p with buffer := p.buffer ++ [c] } h1 (by simp) (fun d hd => hw d (by simp [hd]))]
    simp

/-- The maps hold the assignments `T` and `V`. -/
def Rep (ms : SMap Str) (mv : SMap (List Str)) (rem : List Str) (T : List (Str × Str)) (V : List (Str × List Str)) :
    Prop :=
  RepMap ms T ∧ RepMap mv V ∧ ∀ r, '@' ∉ r → rem.count r = ((occ T r).length - 1) + ((occ V r).length - 1)

/-- The numbers can be stored. -/
def VecOk (chk : Check) (l : Str) (ns : List Str) : Prop :=
  ∃ n rest k, ns = n :: rest ∧ rest ≠ [] ∧ atoi n = some (some k) ∧
    (chk.checkVec l ns = some true ∨ chk.checkVec l ns = some false ∧ (rest.length : Int) = k)

/-- Between lines, nothing is pending. -/
def Settled (p : Parser) (T : List (Str × Str)) (V : List (Str × List Str)) : Prop :=
  p.state = .inLabel ∧ p.buffer = [] ∧ p.numeric = [] ∧ Rep p.mapStr p.mapVec p.removal T V

/-- Between lines, after a list of numbers, which is not yet stored. -/
def Pending (chk : Check) (p : Parser) (T : List (Str × Str)) (V : List (Str × List Str)) : Prop :=
  ∃ V0 l ns, V = V0 ++ [(l, ns)] ∧ p.state = .inValueOrLabel ∧ p.buffer = [] ∧ p.numeric = ns ∧ p.lastLabel = l ∧
    VecOk chk l ns ∧ '@' ∉ l ∧ Rep p.mapStr p.mapVec p.removal T V0

/-- Between lines. -/
def Good (chk : Check) (f : Bool) (p : Parser) (T : List (Str × Str)) (V : List (Str × List Str)) : Prop :=
  Settled p T V ∨ f = true ∧ Pending chk p T V

theorem rep_text (ms : SMap Str) (mv : SMap (List Str)) (rem : List Str) (T : List (Str × Str))
    (V : List (Str × List Str)) (h : Rep ms mv rem T V) (l v : Str) (hl : '@' ∉ l) (hT : T.length < 2 ^ 31) :
    ∃ m', mapSet (adjLabel l ms rem).1 v ms = .ok m' ∧ Rep m' mv (adjLabel l ms rem).2 (T ++ [(l, v)]) V := by
  obtain ⟨m', h1, h2, h3⟩ := insert_spec ms T h.1 l hl v hT rem
  refine ⟨m', h1, h2, h.2.1, ?_⟩
  intro r hr
  have hc := h.2.2 r hr
  rw [h3]
  by_cases hrl : l = r
  · subst hrl
    rw [occ_snoc_self, List.length_append, List.length_singleton, Nat.add_sub_cancel]
    split
    · rename_i h0; rw [hc, h0]; simp
    · rename_i h0
      have : 0 < (occ T l).length := List.length_pos_iff.2 h0
      rw [List.count_append, hc, List.count_singleton_self]; omega
  · rw [occ_snoc_ne _ _ _ _ hrl]
    split
    · exact hc
    · rw [List.count_append, hc, List.count_singleton]; simp [hrl]

theorem rep_vec (ms : SMap Str) (mv : SMap (List Str)) (rem : List Str) (T : List (Str × Str))
    (V : List (Str × List Str)) (h : Rep ms mv rem T V) (l : Str) (v : List Str) (hl : '@' ∉ l)
    (hV : V.length < 2 ^ 31) :
    ∃ m', mapSet (adjLabel l mv rem).1 v mv = .ok m' ∧ Rep ms m' (adjLabel l mv rem).2 T (V ++ [(l, v)]) := by
  obtain ⟨m', h1, h2, h3⟩ := insert_spec mv V h.2.1 l hl v hV rem
  refine ⟨m', h1, h.1, h2, ?_⟩
  intro r hr
  have hc := h.2.2 r hr
  rw [h3]
  by_cases hrl : l = r
  · subst hrl
    rw [occ_snoc_self, List.length_append, List.length_singleton, Nat.add_sub_cancel]
    split
    · rename_i h0; rw [hc, h0]; simp
    · rename_i h0
      have : 0 < (occ V l).length := List.length_pos_iff.2 h0
      rw [List.count_append, hc, List.count_singleton_self]; omega
  · rw [occ_snoc_ne _ _ _ _ hrl]
    split
    · exact hc
    · rw [List.count_append, hc, List.count_singleton]; simp [hrl]

theorem checkNumbers_ok (chk : Check) (p : Parser) (T : List (Str × Str)) (V0 : List (Str × List Str))
    (hv : VecOk chk p.lastLabel p.numeric) (hl : '@' ∉ p.lastLabel) (hr : Rep p.mapStr p.mapVec p.removal T V0)
    (hV : V0.length < 2 ^ 31) :
    ∃ m' rem, checkNumbers chk p = .ok { p with mapVec := m', removal := rem } ∧
      Rep p.mapStr m' rem T (V0 ++ [(p.lastLabel, p.numeric)]) := by
  obtain ⟨m', h1, h2⟩ := rep_vec _ _ _ _ _ hr p.lastLabel p.numeric hl hV
  refine ⟨m', _, ?_, h2⟩
  obtain ⟨n, rest, k, hns, hrest, hk, hchk⟩ := hv
  obtain ⟨n2, rest, rfl⟩ := List.exists_cons_of_ne_nil hrest
  unfold checkNumbers
  rw [hns] at h1 hchk ⊢
  simp only [hk, ofNested, bind, Except.bind]
  rcases hchk with hc | ⟨hc, hlen⟩
  · simp only [hc, ofThrow]
    rw [if_neg (by simp)]
    simp only [h1]
  · simp only [hc, ofThrow]
    have hk31 : k < 2147483648 := by
      unfold atoi at hk
      split at hk
      · unfold stdAtoi at hk
        split at hk <;> (try simp only at hk) <;> split at hk <;> simp at hk <;> omega
      · simp at hk
    have e : (k % 2 ^ 64).toNat + 1 = (n :: n2 :: rest).length := by
      rw [← hlen] at hk31 ⊢
      rw [Int.emod_eq_of_lt (by omega) (by omega)]
      simp
    rw [if_neg (by rw [e]; simp)]
    simp only [h1]

theorem start_label (chk : Check) (f : Bool) (p : Parser) (T : List (Str × Str)) (V : List (Str × List Str))
    (h : Good chk f p T V) (hV : V.length < 2 ^ 31) (l : Str) (hl : IsLabel l) :
    ∃ p', feed chk p l = .ok p' ∧ p'.state = .inLabel ∧ p'.buffer = l ∧ p'.numeric = [] ∧
      Rep p'.mapStr p'.mapVec p'.removal T V := by
  obtain ⟨⟨c, s, rfl, hc⟩, hpl⟩ := hl
  have hs : ∀ d ∈ s, Plain d := fun d hd => (hpl d (by simp [hd])).1
  have hc := letter_type c (hpl c (by simp)).1 hc
  rcases h with ⟨h1, h2, h3, h4⟩ | ⟨_, V0, l0, ns, rfl, h1, h2, h3, h5, h6, h7, h8⟩
  · refine ⟨{ p with buffer := c :: s }, ?_, h1, rfl, h3, h4⟩
    rw [feed_plain chk p _ (by rw [h1]; decide) (by rw [h1]; decide) (fun d hd => (hpl d hd).1), h2]
    rfl
  · subst h3 h5
    obtain ⟨m', rem, hcn, hrep⟩ := checkNumbers_ok chk p T V0 h6 h7 h8 (by simp at hV; omega)
    refine ⟨{ p with mapVec := m', removal := rem, numeric := [], state := .inLabel, buffer := c :: s }, ?_, rfl, rfl,
      rfl, hrep⟩
    have hstep : parseChar chk p c = .ok { p with mapVec := m', removal := rem, numeric := [], state := .inLabel, buffer := [c] } := by
      unfold parseChar
      simp [hc, h1, hcn, bind, Except.bind, h2]
    rw [feed_cons chk p _ c s hstep, feed_plain chk _ s (by simp) (by simp) hs]
    rfl

theorem saveLabel (chk : Check) (p : Parser) (h : p.state = .inLabel) (hb : p.buffer ≠ [])
    (hc : ∀ l, chk.checkSimpleLabel l = true) (c : Char) (hcc : c = '=' ∨ c = ' ') :
    parseChar chk p c = .ok { p with lastLabel := p.buffer, state := if c = '=' then .inValueText else .inValueNumeric, buffer := [] } := by
  have e2 : findTypeOf ' ' = .whitespace := by decide
  rcases hcc with rfl | rfl
  · simp [parseChar, eq_type, h, hb, saveBuffer, hc, bind, Except.bind]
  · simp [parseChar, e2, h, hb, saveBuffer, hc, bind, Except.bind]

theorem label_no_at {l : Str} (hl : IsLabel l) : '@' ∉ l := fun h => (hl.2 '@' h).2 rfl

theorem label_ne {l : Str} (hl : IsLabel l) : l ≠ [] := by
  obtain ⟨⟨c, s, rfl, _⟩, _⟩ := hl; simp

theorem text_line (chk : Check) (hc1 : ∀ l, chk.checkSimpleLabel l = true) (hc2 : ∀ l v, chk.checkText l v = true)
    (f : Bool) (p : Parser) (T : List (Str × Str)) (V : List (Str × List Str))
    (h : Good chk f p T V) (hV : V.length < 2 ^ 31) (hT : T.length < 2 ^ 31) (l v : Str) (hl : IsLabel l)
    (hv : IsValue v) :
    ∃ p', feed chk p (l ++ ('=' :: v) ++ ['\n']) = .ok p' ∧ Settled p' (T ++ [(l, v)]) V := by
  obtain ⟨p1, hf1, hs1, hb1, hn1, hr1⟩ := start_label chk f p T V h hV l hl
  obtain ⟨⟨c, s, rfl, hc⟩, hpl⟩ := hv
  rw [List.append_assoc, feed_append chk p p1 _ _ hf1, List.cons_append,
    feed_cons chk p1 _ _ _ (saveLabel chk p1 hs1 (by rw [hb1]; exact label_ne hl) hc1 '=' (.inl rfl)), if_pos rfl,
    List.cons_append, feed_cons chk _ _ _ _ (parse_plain chk _ c (by simp) (by simp) hc),
    feed_append chk _ _ _ _ (feed_value chk _ s rfl (by simp) (fun d hd => hpl d (by simp [hd])))]
  simp only [hb1, List.nil_append, List.singleton_append]
  obtain ⟨m', hm, hrep⟩ := rep_text _ _ _ _ _ hr1 l (c :: s) (label_no_at hl) hT
  refine ⟨{ p1 with lastLabel := l, state := .inLabel, buffer := [], mapStr := m', removal := (adjLabel l p1.mapStr p1.removal).2 }, ?_, rfl, rfl, hn1, hrep⟩
  have e : findTypeOf '\n' = .endOfLine := by decide
  rw [feed_cons chk _ { p1 with lastLabel := l, state := .inLabel, buffer := [], mapStr := m', removal := (adjLabel l p1.mapStr p1.removal).2 }]
  · rfl
  · simp [parseChar, e, saveBuffer, hm, hc2, bind, Except.bind]

theorem spaced_nil : spaced [] = [] := rfl
theorem spaced_one (w : Str) : spaced [w] = w := by simp [spaced]
theorem spaced_cons (w w' : Str) (ws : List Str) : spaced (w :: w' :: ws) = w ++ ' ' :: spaced (w' :: ws) := by
  simp [spaced, List.intercalate]

/-- Numbers after the first ones. -/
theorem feed_numbers (chk : Check) (ns : List Str) (hns : ∀ n ∈ ns, IsNumber n) (hne : ns ≠ []) (p : Parser)
    (hs : p.state = .inValueNumeric ∨ p.state = .inValueOrLabel) (hb : p.buffer = []) :
    feed chk p (spaced ns ++ ['\n']) =
      .ok { p with numeric := p.numeric ++ ns, state := .inValueOrLabel, buffer := [] } := by
  have e1 : findTypeOf ' ' = .whitespace := by decide
  have e2 : findTypeOf '\n' = .endOfLine := by decide
  have word : ∀ (p : Parser) (n : Str) (c : Char), c = ' ' ∨ c = '\n' → IsNumber n →
      (p.state = .inValueNumeric ∨ p.state = .inValueOrLabel) → p.buffer = [] →
      feed chk p (n ++ [c]) =
        .ok { p with numeric := p.numeric ++ [n], state := .inValueOrLabel, buffer := [] } := by
    intro p n c hc hn hs hb
    obtain ⟨⟨d, s, rfl, hd⟩, hpl⟩ := hn
    have hd' := number_plain d hd
    have hd := number_type d hd
    have hstep : parseChar chk p d = .ok { p with state := .inValueNumeric, buffer := [d] } := by
      rcases hs with hs | hs
      · rw [parse_plain chk p d (by rw [hs]; decide) (by rw [hs]; decide) hd', hb]
        cases p; simp_all
      · simp [parseChar, hd, hs, hb, bind, Except.bind]
    rw [List.cons_append, feed_cons chk _ _ _ _ hstep,
      feed_append chk _ _ _ _ (feed_plain chk _ s (by simp) (by simp) (fun c hc => hpl c (by simp [hc])))]
    rw [feed_cons chk _ { p with numeric := p.numeric ++ [d :: s], state := .inValueOrLabel, buffer := [] }]
    · rfl
    · rcases hc with rfl | rfl <;> simp [parseChar, e1, e2, saveBuffer, bind, Except.bind]
  induction ns generalizing p with
  | nil => exact absurd rfl hne
  | cons n ns ih =>
    cases ns with
    | nil => rw [spaced_one, word p n '\n' (.inr rfl) (hns n (by simp)) hs hb]
    | cons n' ns =>
      rw [spaced_cons, show n ++ ' ' :: spaced (n' :: ns) ++ ['\n'] = (n ++ [' ']) ++ (spaced (n' :: ns) ++ ['\n']) by
        simp, feed_append chk _ _ _ _ (word p n ' ' (.inl rfl) (hns n (by simp)) hs hb),
        ih (fun m hm => hns m (by simp [hm])) (by simp) _ (.inr rfl) rfl]
      simp

theorem vec_line (chk : Check) (hc1 : ∀ l, chk.checkSimpleLabel l = true)
    (f : Bool) (p : Parser) (T : List (Str × Str)) (V : List (Str × List Str))
    (h : Good chk f p T V) (hV : V.length < 2 ^ 31) (l : Str) (ns : List Str) (hl : IsLabel l)
    (hns : ∀ n ∈ ns, IsNumber n) (hv : VecOk chk l ns) :
    ∃ p', feed chk p (l ++ (' ' :: spaced ns) ++ ['\n']) = .ok p' ∧ Pending chk p' T (V ++ [(l, ns)]) := by
  obtain ⟨p1, hf1, hs1, hb1, hn1, hr1⟩ := start_label chk f p T V h hV l hl
  have hne : ns ≠ [] := by obtain ⟨n, r, k, rfl, _⟩ := hv; simp
  rw [List.append_assoc, feed_append chk p p1 _ _ hf1, List.cons_append,
    feed_cons chk p1 _ _ _ (saveLabel chk p1 hs1 (by rw [hb1]; exact label_ne hl) hc1 ' ' (.inr rfl)),
    if_neg (by decide), feed_numbers chk ns hns hne _ (.inl rfl) rfl]
  refine ⟨_, rfl, V, l, ns, rfl, rfl, rfl, by simp [hn1], hb1, hv, label_no_at hl, hr1⟩

theorem digit_plain (d : Char) (h : isDigit d = true) : Plain d ∧ d ≠ '@' := by
  have := (isDigit_iff d).1 h
  clear h
  revert d
  unfold Plain
  decide

theorem expand_lines (chk : Check) (hc1 : ∀ l, chk.checkSimpleLabel l = true)
    (hc2 : ∀ l v, chk.checkText l v = true) (a b : Str) (ha : IsLabel a) (hb : ∀ c ∈ b, Plain c ∧ c ≠ '@')
    (vs : List Str) (hvs : ∀ v ∈ vs, IsValue v) (hne : vs ≠ []) (i : Nat) (f : Bool) (p : Parser)
    (T : List (Str × Str)) (V : List (Str × List Str)) (h : Good chk f p T V) (hV : V.length < 2 ^ 31)
    (hT : T.length + vs.length ≤ 2 ^ 31) :
    ∃ p', feed chk p (newLines a b i vs) = .ok p' ∧
      Settled p' (T ++ vs.mapIdx fun j v => (a ++ Nat.toDigits 10 (i + j) ++ b, v)) V := by
  induction vs generalizing i f p T with
  | nil => exact absurd rfl hne
  | cons v vs ih =>
    have hlab : IsLabel (a ++ ttos i ++ b) := by
      obtain ⟨⟨c, s, rfl, hc⟩, hpl⟩ := ha
      refine ⟨⟨c, s ++ ttos i ++ b, by simp, hc⟩, ?_⟩
      intro d hd
      rcases List.mem_append.1 hd with hd | hd
      · rcases List.mem_append.1 hd with hd | hd
        · exact hpl d hd
        · exact digit_plain d (isDigit_toDigits i d hd)
      · exact hb d hd
    obtain ⟨p1, h1, h2⟩ := text_line chk hc1 hc2 f p T V h hV (by simp at hT; omega) _ v hlab (hvs v (by simp))
    have e : newLines a b i (v :: vs) = (a ++ ttos i ++ b ++ ('=' :: v) ++ ['\n']) ++ newLines a b (i + 1) vs := by
      simp [newLines]
    rw [e, feed_append chk _ _ _ _ h1]
    cases vs with
    | nil => exact ⟨p1, rfl, by simpa [ttos] using h2⟩
    | cons v' vs =>
      obtain ⟨p2, h3, h4⟩ := ih (fun w hw => hvs w (by simp [hw])) (by simp) (i + 1) false p1 _ (.inl h2)
        (by simp at hT ⊢; omega)
      refine ⟨p2, h3, ?_⟩
      have e2 : T ++ (v :: v' :: vs).mapIdx (fun j v => (a ++ Nat.toDigits 10 (i + j) ++ b, v)) =
          T ++ [(a ++ ttos i ++ b, v)] ++
            (v' :: vs).mapIdx (fun j v => (a ++ Nat.toDigits 10 (i + 1 + j) ++ b, v)) := by
        have hg : (fun j (w : Str) => (a ++ Nat.toDigits 10 (i + (j + 1)) ++ b, w)) =
            fun j w => (a ++ Nat.toDigits 10 (i + 1 + j) ++ b, w) := by
          funext j w
          rw [show i + (j + 1) = i + 1 + j by omega]
        rw [List.mapIdx_cons, hg, List.append_assoc T]
        rfl
      rw [e2]
      exact h4

/-- A line after the expansion of `!`. -/
def Line.expanded : Line → Str
  | .expand a b vs => newLines a b 0 vs
  | l => l.render

theorem blank_ok (chk : Check) (f : Bool) (p : Parser) (T : List (Str × Str)) (V : List (Str × List Str))
    (h : Good chk f p T V) : parseChar chk p '\n' = .ok p := by
  have e : findTypeOf '\n' = .endOfLine := by decide
  rcases h with ⟨h1, h2, _⟩ | ⟨_, V0, l0, ns, rfl, h1, h2, _⟩ <;> simp [parseChar, e, h1, h2]

theorem feed_comment (chk : Check) (p : Parser) (hp : p.state = .inComment) (t : Str) (ht : '\n' ∉ t) :
    feed chk p t = .ok p := by
  induction t with
  | nil => rfl
  | cons c t ih =>
    have hc : findTypeOf c ≠ .endOfLine := by
      have hcn : c ≠ '\n' := fun e => ht (by simp [e])
      unfold findTypeOf
      split_ifs <;> simp_all
    rw [feed_cons chk p p c t (by simp [parseChar, hp, hc]), ih (fun e => ht (by simp [e]))]

theorem parse_lines (chk : Check) (hc1 : ∀ l, chk.checkSimpleLabel l = true)
    (hc2 : ∀ l v, chk.checkText l v = true) (ls : List Line) (hls : ∀ l ∈ ls, l.Ok chk) (f : Bool)
    (hcm : CommentsOk f ls) (p : Parser) (T : List (Str × Str)) (V : List (Str × List Str)) (h : Good chk f p T V)
    (hT : T.length + (texts ls).length + (V.length + (vecs ls).length) < 2 ^ 31) :
    ∃ p', feed chk p (ls.flatMap Line.expanded) = .ok p' ∧ Good chk true p' (T ++ texts ls) (V ++ vecs ls) := by
  induction ls generalizing f p T V with
  | nil =>
    refine ⟨p, rfl, ?_⟩
    simp only [texts, vecs, List.flatMap_nil, List.append_nil]
    rcases h with h | h
    · exact .inl h
    · exact .inr ⟨rfl, h.2⟩
  | cons l ls ih =>
    have hok := hls l (by simp)
    have hrest : ∀ l' ∈ ls, l'.Ok chk := fun l' hl' => hls l' (by simp [hl'])
    have ht : texts (l :: ls) = l.texts ++ texts ls := by simp [texts]
    have hvv : vecs (l :: ls) = l.vecs ++ vecs ls := by simp [vecs]
    rw [ht, hvv, List.length_append, List.length_append] at hT
    rw [List.flatMap_cons, ht, hvv, ← List.append_assoc, ← List.append_assoc]
    cases l with
    | text lab v =>
      simp only [Line.texts, Line.vecs, List.length_singleton, List.length_nil] at hT
      obtain ⟨p1, h1, h2⟩ := text_line chk hc1 hc2 f p T V h (by omega) (by omega) lab v hok.1 hok.2.2
      obtain ⟨p2, h3, h4⟩ := ih hrest false hcm p1 (T ++ [(lab, v)]) V (.inl h2) (by simp; omega)
      exact ⟨p2, by rw [feed_append chk _ _ _ _ (show feed chk p (Line.expanded (.text lab v)) = _ from h1), h3],
        by simpa [Line.texts, Line.vecs] using h4⟩
    | vec lab ns =>
      simp only [Line.texts, Line.vecs, List.length_singleton, List.length_nil] at hT
      obtain ⟨p1, h1, h2⟩ := vec_line chk hc1 f p T V h (by omega) lab ns hok.1 hok.2.2.1 hok.2.2.2
      obtain ⟨p2, h3, h4⟩ := ih hrest true hcm p1 T (V ++ [(lab, ns)]) (.inr ⟨rfl, h2⟩) (by simp; omega)
      exact ⟨p2, by rw [feed_append chk _ _ _ _ (show feed chk p (Line.expanded (.vec lab ns)) = _ from h1), h3],
        by simpa [Line.texts, Line.vecs] using h4⟩
    | blank =>
      simp only [Line.texts, Line.vecs, List.length_nil] at hT
      obtain ⟨p2, h3, h4⟩ := ih hrest f hcm p T V h (by omega)
      exact ⟨p2, by rw [feed_append chk p p (Line.expanded .blank) _ (by
        show feed chk p ['\n'] = _
        rw [feed_cons chk p p _ _ (blank_ok chk f p T V h)]; rfl), h3], by simpa [Line.texts, Line.vecs] using h4⟩
    | comment t =>
      simp only [Line.texts, Line.vecs, List.length_nil] at hT
      obtain ⟨rfl, hcm⟩ := hcm
      have hset : Settled p T V := by
        rcases h with h | h
        · exact h
        · simp at h
      obtain ⟨p2, h3, h4⟩ := ih hrest false hcm p T V (.inl hset) (by omega)
      have e : findTypeOf '\n' = .endOfLine := by decide
      have e2 : findTypeOf '#' = .comment := by decide
      have hfeed : feed chk p (Line.expanded (.comment t)) = .ok p := by
        show feed chk p ('#' :: (t ++ ['\n'])) = _
        rw [feed_cons chk p { p with state := .inComment } '#' _ (by simp [parseChar, e2, hset.1]),
          feed_append chk _ _ _ _ (feed_comment chk _ rfl t hok)]
        rw [feed_cons chk _ { p with state := .inLabel } '\n' _ (by simp [parseChar, e])]
        have : p.state = .inLabel := hset.1
        cases p
        simp_all
        rfl
      exact ⟨p2, by rw [feed_append chk p p _ _ hfeed, h3], by simpa [Line.texts, Line.vecs] using h4⟩
    | expand a b vs =>
      simp only [Line.texts, Line.vecs, List.length_mapIdx, List.length_nil] at hT
      obtain ⟨p1, h1, h2⟩ := expand_lines chk hc1 hc2 a b hok.1 hok.2.1 vs hok.2.2.2.2 hok.2.2.2.1 0 f p T V h
        (by omega) (by omega)
      simp only [Nat.zero_add] at h2
      obtain ⟨p2, h3, h4⟩ := ih hrest false hcm p1 _ V (.inl h2) (by simp; omega)
      exact ⟨p2, by rw [feed_append chk _ _ _ _ (show feed chk p (Line.expanded (.expand a b vs)) = _ from h1), h3],
        by simpa [Line.texts, Line.vecs] using h4⟩

/-! ## Lines -/

/-- A line without the end of line. -/
def Line.body : Line → Str
  | .text l v => l ++ ('=' :: v)
  | .vec l ns => l ++ (' ' :: spaced ns)
  | .blank => []
  | .comment t => '#' :: t
  | .expand a b vs => '!' :: (a ++ ('$' :: 'i' :: b) ++ (' ' :: spaced vs))

theorem render_body (l : Line) : l.render = l.body ++ ['\n'] := by cases l <;> simp [Line.render, Line.body]

theorem plain_ne {c : Char} (h : Plain c) : c ≠ '\n' ∧ c ≠ ' ' ∧ c ≠ '\t' := by
  refine ⟨?_, ?_, ?_⟩ <;> rintro rfl <;> revert h <;> unfold Plain <;> decide

theorem not_mem_spaced (ws : List Str) (c : Char) (hc : c ≠ ' ') (h : ∀ w ∈ ws, c ∉ w) : c ∉ spaced ws := by
  induction ws with
  | nil => simp [spaced_nil]
  | cons w ws ih =>
    cases ws with
    | nil => rw [spaced_one]; exact h w (by simp)
    | cons w' ws =>
      rw [spaced_cons, List.mem_append, List.mem_cons]
      rintro (h1 | h1 | h1)
      · exact h w (by simp) h1
      · exact hc h1
      · exact ih (fun v hv => h v (by simp [hv])) h1

theorem value_no_nl {v : Str} (hv : IsValue v) : '\n' ∉ v := by
  intro h
  rcases hv.2 _ h with h | h
  · exact (plain_ne h).1 rfl
  · revert h; decide

theorem value_no_space {v : Str} (hv : IsValue v) : ' ' ∉ v := by
  intro h
  rcases hv.2 _ h with h | h
  · exact (plain_ne h).2.1 rfl
  · revert h; decide

/-- The line can be cut from the file and expanded: as `Line.Ok`, but for how many numbers there are. -/
def Line.Shape : Line → Prop
  | .text l v => IsLabel l ∧ l.head? ≠ some '!' ∧ IsValue v
  | .vec l ns => IsLabel l ∧ l.head? ≠ some '!' ∧ (∀ n ∈ ns, IsNumber n)
  | .blank => True
  | .comment t => '\n' ∉ t
  | .expand a b vs => IsLabel a ∧ (∀ c ∈ b, Plain c ∧ c ≠ '@') ∧ '$' ∉ a ∧ vs ≠ [] ∧ ∀ v ∈ vs, IsValue v

theorem Line.Ok.shape {chk : Check} {l : Line} (h : l.Ok chk) : l.Shape := by
  cases l with
  | vec l ns => exact ⟨h.1, h.2.1, h.2.2.1⟩
  | _ => exact h

theorem body_no_nl (l : Line) (h : l.Shape) : '\n' ∉ l.body := by
  cases l with
  | text l v =>
    simp only [Line.body, List.mem_append, List.mem_cons]
    rintro (h1 | h1 | h1)
    · exact (plain_ne (h.1.2 _ h1).1).1 rfl
    · revert h1; decide
    · exact value_no_nl h.2.2 h1
  | vec l ns =>
    simp only [Line.body, List.mem_append, List.mem_cons]
    rintro (h1 | h1 | h1)
    · exact (plain_ne (h.1.2 _ h1).1).1 rfl
    · revert h1; decide
    · exact not_mem_spaced ns '\n' (by decide) (fun w hw e => (plain_ne ((h.2.2 w hw).2 _ e)).1 rfl) h1
  | blank => simp [Line.body]
  | comment t => simp only [Line.body, List.mem_cons]; rintro (h1 | h1); revert h1; decide; exact h h1
  | expand a b vs =>
    simp only [Line.body, List.mem_append, List.mem_cons]
    rintro (h1 | (h1 | h1 | h1 | h1) | h1 | h1)
    · revert h1; decide
    · exact (plain_ne (h.1.2 _ h1).1).1 rfl
    · revert h1; decide
    · revert h1; decide
    · exact (plain_ne (h.2.1 _ h1).1).1 rfl
    · revert h1; decide
    · exact not_mem_spaced vs '\n' (by decide) (fun w hw => value_no_nl (h.2.2.2.2 w hw)) h1

theorem replaceLine_ok (l : Line) (h : l.Shape) : replaceLine l.body = .ok l.expanded := by
  have plainLine : ∀ s : Str, s.head? ≠ some '!' → replaceLine s = .ok (s ++ ['\n']) := by
    intro s hs; simp [replaceLine, hs]
  cases l with
  | text l v =>
    obtain ⟨c, s, hl, _⟩ := h.1.1
    have := h.2.1
    rw [plainLine]
    · simp [Line.body, Line.expanded, Line.render]
    · rw [hl] at this ⊢; simpa [Line.body] using this
  | vec l ns =>
    obtain ⟨c, s, hl, _⟩ := h.1.1
    have := h.2.1
    rw [plainLine]
    · simp [Line.body, Line.expanded, Line.render]
    · rw [hl] at this ⊢; simpa [Line.body] using this
  | blank => rfl
  | comment t => rw [plainLine _ (by simp [Line.body])]; simp [Line.body, Line.expanded, Line.render]
  | expand a b vs =>
    obtain ⟨h1, h2, h3, h4, h5⟩ := h
    have ea : ∀ t : Str, (a ++ '$' :: t).takeWhile (· ≠ '$') = a := by
      intro t
      rw [List.takeWhile_append_of_pos (by intro c hc; simp; intro e; exact h3 (e ▸ hc))]; simp
    have ed : ∀ t : Str, (a ++ '$' :: t).dropWhile (· ≠ '$') = '$' :: t := by
      intro t
      rw [List.dropWhile_append_of_pos (by intro c hc; simp; intro e; exact h3 (e ▸ hc))]; simp
    have hbp : ∀ c ∈ b, (decide (c ≠ ' ' ∧ c ≠ '\t')) = true := by
      intro c hc
      have := plain_ne (h2 c hc).1
      simp [this.2.1, this.2.2]
    have eb : ∀ t : Str, (b ++ ' ' :: t).takeWhile (fun c => decide (c ≠ ' ' ∧ c ≠ '\t')) = b := by
      intro t
      rw [List.takeWhile_append_of_pos hbp]; simp
    have ebd : ∀ t : Str, (b ++ ' ' :: t).dropWhile (fun c => decide (c ≠ ' ' ∧ c ≠ '\t')) = ' ' :: t := by
      intro t
      rw [List.dropWhile_append_of_pos hbp]; simp
    have hsp : spaced vs ≠ [] := by
      obtain ⟨v, vs', rfl⟩ := List.exists_cons_of_ne_nil h4
      obtain ⟨⟨c, s, rfl, _⟩, _⟩ := h5 v (by simp)
      cases vs' with
      | nil => simp [spaced_one]
      | cons w ws => simp [spaced_cons]
    have hsplit : split [] (spaced vs) [' '] = some vs := by
      apply split_join vs [' '] [' '] (by simp) (by simp)
      intro v hv
      refine ⟨?_, ?_⟩
      · obtain ⟨⟨c, s, rfl, _⟩, _⟩ := h5 v hv; simp
      · intro c hc hcc
        rw [List.mem_singleton] at hcc
        exact value_no_space (h5 v hv) (hcc ▸ hc)
    have e0 : (Line.body (.expand a b vs)).drop 1 = a ++ '$' :: ('i' :: (b ++ ' ' :: spaced vs)) := by
      simp [Line.body]
    have eh : (Line.body (.expand a b vs)).head? = some '!' := by simp [Line.body]
    unfold replaceLine
    rw [eh, e0, if_neg (by simp)]
    simp only [ea, ed, List.drop_succ_cons, List.drop_zero, ne_eq, not_true_eq_false, if_false]
    have eb' := eb (spaced vs)
    have ebd' := ebd (spaced vs)
    simp only [ne_eq] at eb' ebd'
    rw [eb', ebd']
    simp only [List.drop_succ_cons, List.drop_zero, hsp, if_false, hsplit, ofThrow, bind, Except.bind, pure,
      Except.pure, Line.expanded]

theorem changeData_ok (ls : List Line) (h : ∀ l ∈ ls, l.Shape) :
    changeData (render ls) = .ok (ls.flatMap Line.expanded ++ ['\n']) := by
  have key : ∃ r, (splitIntoLines (render ls)).mapM replaceLine = .ok r ∧
      r.flatten = ls.flatMap Line.expanded ++ ['\n'] := by
    induction ls with
    | nil =>
      refine ⟨[['\n']], ?_, rfl⟩
      simp [render, splitIntoLines]; rfl
    | cons l ls ih =>
      obtain ⟨r, h1, h2⟩ := ih (fun l' hl' => h l' (by simp [hl']))
      have hb := body_no_nl l (h l (by simp))
      have hsp : splitIntoLines (render (l :: ls)) = l.body :: splitIntoLines (render ls) := by
        have : render (l :: ls) = l.body ++ '\n' :: render ls := by
          simp [render, render_body]
        rw [this]
        unfold splitIntoLines List.splitOn
        exact splitOnP_token_delim _ _ (by intro x hx; simp; intro e; exact hb (e ▸ hx)) _ (by simp) _
      refine ⟨l.expanded :: r, ?_, by simp [h2]⟩
      rw [hsp, List.mapM_cons, replaceLine_ok l (h l (by simp)), h1]
      rfl
  obtain ⟨r, h1, h2⟩ := key
  simp only [changeData, h1, bind, Except.bind, pure, Except.pure, h2]

theorem rep_init : Rep [] [] [] [] [] := by
  refine ⟨⟨List.Pairwise.nil, ?_⟩, ⟨List.Pairwise.nil, ?_⟩, ?_⟩ <;> intro r _ <;> simp [occ]

/-- What is stored for a well formed file. -/
theorem load_ok (chk : Check) (ls : List Line) (h : FileOk chk ls) :
    ∃ r, load chk (render ls) = .ok r ∧ Rep r.mapStr r.mapVec r.removal (texts ls) (vecs ls) := by
  obtain ⟨p, hp, hg⟩ := parse_lines chk h.labels h.values ls h.lines false h.comments .init [] []
    (.inl ⟨rfl, rfl, rfl, rep_init⟩) (by simpa using h.size)
  simp only [List.nil_append] at hg
  have hfeed : feed chk .init (ls.flatMap Line.expanded ++ ['\n']) = .ok p := by
    rw [feed_append chk _ _ _ _ hp, feed_cons chk p p _ _ (blank_ok chk true p _ _ hg)]; rfl
  unfold feed at hfeed
  simp only [load, changeData_ok ls (fun l hl => (h.lines l hl).shape), bind, Except.bind, parseInternal, hfeed]
  rcases hg with ⟨_, _, hn, hr⟩ | ⟨_, V0, l, ns, hV, h1, h2, h3, h4, h5, h6, h7⟩
  · rw [hn]
    exact ⟨_, rfl, hr⟩
  · subst h3 h4
    have hlen := h.size
    rw [hV, List.length_append] at hlen
    obtain ⟨m', rem, hcn, hrep⟩ := checkNumbers_ok chk p _ V0 h5 h6 h7 (by omega)
    obtain ⟨n, rest, k, hns, _⟩ := h5
    rw [if_pos (by rw [hns]; simp), hcn]
    exact ⟨_, rfl, by rw [hV]; exact hrep⟩

/-! ## Reading -/

theorem findFirst_spec {V : Type} (l : Str) (m : SMap V) :
    (m.filter (fun e => decide (findRootLabel e.1 = l)) = [] ∧ findFirst l m = none) ∨
    ∃ A e B, m = A ++ e :: B ∧ findFirst l m = some (A, e, B) ∧ findRootLabel e.1 = l ∧
      A.filter (fun e => decide (findRootLabel e.1 = l)) = [] := by
  induction m with
  | nil => exact .inl ⟨rfl, rfl⟩
  | cons e m ih =>
    by_cases he : l = findRootLabel e.1
    · right
      exact ⟨[], e, m, rfl, by simp [findFirst, ← he], he.symm, rfl⟩
    · rcases ih with ⟨h1, h2⟩ | ⟨A, e', B, h1, h2, h3, h4⟩
      · left
        exact ⟨by rw [List.filter_cons, if_neg (by simpa using fun e => he e.symm), h1], by simp [findFirst, he, h2]⟩
      · right
        refine ⟨e :: A, e', B, by rw [h1]; rfl, by simp [findFirst, he, h2], h3, ?_⟩
        rw [List.filter_cons, if_neg (by simpa using fun e => he e.symm), h4]

/-- The values of a label left in a map. -/
def vals {V : Type} (m : SMap V) (l : Str) : List V :=
  (m.filter (fun e => decide (findRootLabel e.1 = l))).map (·.2)

theorem findFirst_none {V : Type} (l : Str) (m : SMap V) (h : vals m l = []) : findFirst l m = none := by
  rcases findFirst_spec l m with ⟨_, h2⟩ | ⟨A, e, B, h1, h2, h3, h4⟩
  · exact h2
  · exfalso
    rw [h1] at h
    simp [vals, List.filter_append, List.filter_cons, h3] at h

theorem findFirst_some {V : Type} (l : Str) (m : SMap V) (v : V) (vs : List V) (h : vals m l = v :: vs) :
    ∃ A e B, findFirst l m = some (A, e, B) ∧ e.2 = v ∧ vals (A ++ B) l = vs ∧
      ∀ l', l' ≠ l → vals (A ++ B) l' = vals m l' := by
  rcases findFirst_spec l m with ⟨h1, h2⟩ | ⟨A, e, B, h1, h2, h3, h4⟩
  · simp [vals, h1] at h
  · refine ⟨A, e, B, h2, ?_, ?_, ?_⟩
    · rw [h1] at h
      simp [vals, List.filter_append, List.filter_cons, h3, h4] at h
      exact h.1
    · rw [h1] at h
      simp [vals, List.filter_append, List.filter_cons, h3, h4] at h
      simp [vals, List.filter_append, h4, h.2]
    · intro l' hl'
      rw [h1]
      have : findRootLabel e.1 ≠ l' := by rw [h3]; exact hl'.symm
      simp [vals, List.filter_append, List.filter_cons, this]

/-- The reader after some calls. -/
structure After (ls : List Line) (past : List Call) (r : Readable) : Prop where
  str : ∀ l, '@' ∉ l → vals r.mapStr l =
    (occ (texts ls) l).drop (min (movedText past l) ((occ (texts ls) l).length - 1))
  vec : ∀ l, '@' ∉ l → vals r.mapVec l =
    (occ (vecs ls) l).drop (min (movedVec past l) ((occ (vecs ls) l).length - 1))
  rem : ∀ l, '@' ∉ l → r.removal.count l =
    ((occ (texts ls) l).length - 1 - movedText past l) + ((occ (vecs ls) l).length - 1 - movedVec past l)

/-- No label is given both texts and lists of numbers. -/
def KindsApart (ls : List Line) : Prop := ∀ l, occ (texts ls) l = [] ∨ occ (vecs ls) l = []

/-- The label of a call. -/
def Call.label : Call → Str
  | .text l _ => l
  | .vec l => l

/-- The label of a call is a plain one. -/
def Call.Ok (c : Call) : Prop := c.label ≠ [] ∧ '@' ∉ c.label ∧ c.label.getLast? ≠ some '='

theorem label2label_ok (l : Str) (h1 : l ≠ []) (h2 : l.getLast? ≠ some '=') : label2label l = .ok l := by
  simp [label2label, h1, h2]

theorem movedText_snoc (past : List Call) (c : Call) (l : Str) :
    movedText (past ++ [c]) l = movedText past l + if c = .text l true then 1 else 0 := by
  unfold movedText
  rw [List.countP_append]
  cases c with
  | text l' b => cases b <;> simp [List.countP_cons, eq_comm]
  | vec l' => simp

theorem movedVec_snoc (past : List Call) (c : Call) (l : Str) :
    movedVec (past ++ [c]) l = movedVec past l + if c = .vec l then 1 else 0 := by
  unfold movedVec
  rw [List.countP_append]
  cases c with
  | text l' b => cases b <;> simp
  | vec l' => simp [List.countP_cons, eq_comm]

theorem drop_min {V : Type} (L : List V) (k : Nat) (h : L ≠ []) :
    ∃ v vs, L.drop (min k (L.length - 1)) = v :: vs ∧ L[min k (L.length - 1)]? = some v ∧
      (k < L.length - 1 → vs = L.drop (min (k + 1) (L.length - 1))) ∧
      (¬ k < L.length - 1 → L.drop (min (k + 1) (L.length - 1)) = v :: vs) := by
  have hpos : 0 < L.length := List.length_pos_iff.2 h
  have hlt : min k (L.length - 1) < L.length := by omega
  refine ⟨L[min k (L.length - 1)], L.drop (min k (L.length - 1) + 1), ?_, List.getElem?_eq_getElem hlt, ?_, ?_⟩
  · exact List.drop_eq_getElem_cons hlt
  · intro hk
    congr 1; omega
  · intro hk
    have : min (k + 1) (L.length - 1) = min k (L.length - 1) := by omega
    rw [this]
    exact List.drop_eq_getElem_cons hlt

theorem call_step (ls : List Line) (hk : KindsApart ls) (past : List Call) (r : Readable) (h : After ls past r)
    (c : Call) (hc : c.Ok) :
    (answer ls past c = none ∧ c.run r = .error .thrown ∧ After ls (past ++ [c]) r) ∨
    ∃ a r', answer ls past c = some a ∧ c.run r = .ok (a, r') ∧ After ls (past ++ [c]) r' := by
  obtain ⟨hc1, hc2, hc3⟩ := hc
  cases c with
  | text l b =>
    simp only [Call.label] at hc1 hc2 hc3
    have hstr := h.str l hc2
    have hmv : ∀ l', movedVec (past ++ [.text l b]) l' = movedVec past l' := by
      intro l'; rw [movedVec_snoc]; simp
    by_cases h0 : occ (texts ls) l = []
    · left
      have hv : vals r.mapStr l = [] := by rw [hstr, h0]; simp
      refine ⟨by simp [answer, h0], ?_, ?_⟩
      · simp [Call.run, readline, label2label_ok l hc1 hc3, findFirst_none l _ hv, bind, Except.bind, throwOut]
      · have hmt : ∀ l', occ (texts ls) l' ≠ [] → movedText (past ++ [.text l b]) l' = movedText past l' := by
          intro l' hl'
          rw [movedText_snoc, if_neg]; · rfl
          rintro e; cases e; exact hl' h0
        refine ⟨?_, ?_, ?_⟩
        · intro l' hl'
          rw [h.str l' hl']
          by_cases h0' : occ (texts ls) l' = []
          · simp [h0']
          · rw [hmt l' h0']
        · intro l' hl'; rw [hmv]; exact h.vec l' hl'
        · intro l' hl'
          rw [hmv, h.rem l' hl']
          by_cases h0' : occ (texts ls) l' = []
          · simp [h0']
          · rw [hmt l' h0']
    · right
      obtain ⟨v, vs, hd, hg, hlt, hge⟩ := drop_min (occ (texts ls) l) (movedText past l) h0
      rw [hd] at hstr
      obtain ⟨A, e, B, hf, he, hAB, hother⟩ := findFirst_some l r.mapStr v vs hstr
      have hans : answer ls past (.text l b) = some (.text v) := by simp [answer, hg]
      have hv0 : occ (vecs ls) l = [] := by
        rcases hk l with h1 | h1
        · exact absurd h1 h0
        · exact h1
      have hrem := h.rem l hc2
      rw [hv0] at hrem
      simp only [List.length_nil, Nat.zero_sub, Nat.zero_le, Nat.sub_eq_zero_of_le, Nat.add_zero] at hrem
      cases b with
      | false =>
        refine ⟨_, r, hans, ?_, ?_⟩
        · simp [Call.run, readline, label2label_ok l hc1 hc3, hf, bind, Except.bind, he, pure, Except.pure]
        · have hmt : ∀ l', movedText (past ++ [.text l false]) l' = movedText past l' := by
            intro l'; rw [movedText_snoc]; simp
          exact ⟨fun l' hl' => by rw [hmt]; exact h.str l' hl', fun l' hl' => by rw [hmv]; exact h.vec l' hl',
            fun l' hl' => by rw [hmt, hmv]; exact h.rem l' hl'⟩
      | true =>
        have hmt : ∀ l', l' ≠ l → movedText (past ++ [.text l true]) l' = movedText past l' := by
          intro l' hl'; rw [movedText_snoc, if_neg]; · rfl
          rintro e; cases e; exact hl' rfl
        have hmt' : movedText (past ++ [.text l true]) l = movedText past l + 1 := by
          rw [movedText_snoc, if_pos rfl]
        by_cases hlast : movedText past l < (occ (texts ls) l).length - 1
        · have hin : l ∈ r.removal := by
            rw [← List.count_pos_iff, hrem]; omega
          refine ⟨_, { r with mapStr := A ++ B, removal := r.removal.erase l }, hans, ?_, ?_⟩
          · simp [Call.run, readline, label2label_ok l hc1 hc3, hf, bind, Except.bind, he, pure, Except.pure, clean,
              hin]
          · refine ⟨?_, ?_, ?_⟩
            · intro l' hl'
              by_cases hll : l' = l
              · subst hll
                rw [hmt', ← hlt hlast]
                exact hAB
              · rw [hmt l' hll, ← h.str l' hl']
                exact hother l' hll
            · intro l' hl'; rw [hmv]; exact h.vec l' hl'
            · intro l' hl'
              by_cases hll : l' = l
              · subst hll
                show (r.removal.erase l').count l' = _
                rw [hmt', hmv, List.count_erase_self, hrem, hv0]
                simp; omega
              · show (r.removal.erase l).count l' = _
                rw [hmt l' hll, hmv, List.count_erase_of_ne hll, h.rem l' hl']
        · have hin : l ∉ r.removal := by
            rw [← List.count_eq_zero, hrem]; omega
          refine ⟨_, r, hans, ?_, ?_⟩
          · simp [Call.run, readline, label2label_ok l hc1 hc3, hf, bind, Except.bind, he, pure, Except.pure, clean,
              hin]
          · refine ⟨?_, ?_, ?_⟩
            · intro l' hl'
              by_cases hll : l' = l
              · subst hll
                rw [hmt', hge hlast]
                exact hstr
              · rw [hmt l' hll, ← h.str l' hl']
            · intro l' hl'; rw [hmv]; exact h.vec l' hl'
            · intro l' hl'
              by_cases hll : l' = l
              · subst hll
                rw [hmt', hmv, hrem, hv0]
                simp; omega
              · rw [hmt l' hll, hmv, h.rem l' hl']
  | vec l =>
    simp only [Call.label] at hc1 hc2 hc3
    have hstr := h.vec l hc2
    have hmv : ∀ l', movedText (past ++ [.vec l]) l' = movedText past l' := by
      intro l'; rw [movedText_snoc]; simp
    by_cases h0 : occ (vecs ls) l = []
    · left
      have hv : vals r.mapVec l = [] := by rw [hstr, h0]; simp
      refine ⟨by simp [answer, h0], ?_, ?_⟩
      · simp [Call.run, readVector, label2label_ok l hc1 hc3, findFirst_none l _ hv, bind, Except.bind, throwOut]
      · have hmt : ∀ l', occ (vecs ls) l' ≠ [] → movedVec (past ++ [.vec l]) l' = movedVec past l' := by
          intro l' hl'
          rw [movedVec_snoc, if_neg]; · rfl
          rintro e; cases e; exact hl' h0
        refine ⟨?_, ?_, ?_⟩
        · intro l' hl'; rw [hmv]; exact h.str l' hl'
        · intro l' hl'
          rw [h.vec l' hl']
          by_cases h0' : occ (vecs ls) l' = []
          · simp [h0']
          · rw [hmt l' h0']
        · intro l' hl'
          rw [hmv, h.rem l' hl']
          by_cases h0' : occ (vecs ls) l' = []
          · simp [h0']
          · rw [hmt l' h0']
    · right
      obtain ⟨v, vs, hd, hg, hlt, hge⟩ := drop_min (occ (vecs ls) l) (movedVec past l) h0
      rw [hd] at hstr
      obtain ⟨A, e, B, hf, he, hAB, hother⟩ := findFirst_some l r.mapVec v vs hstr
      have hans : answer ls past (.vec l) = some (.vec (v.drop 1)) := by simp [answer, hg]
      have hv0 : occ (texts ls) l = [] := by
        rcases hk l with h1 | h1
        · exact h1
        · exact absurd h1 h0
      have hrem := h.rem l hc2
      rw [hv0] at hrem
      simp only [List.length_nil, Nat.zero_sub, Nat.zero_le, Nat.sub_eq_zero_of_le, Nat.zero_add] at hrem
      have hmt : ∀ l', l' ≠ l → movedVec (past ++ [.vec l]) l' = movedVec past l' := by
        intro l' hl'; rw [movedVec_snoc, if_neg]; · rfl
        rintro e; cases e; exact hl' rfl
      have hmt' : movedVec (past ++ [.vec l]) l = movedVec past l + 1 := by
        rw [movedVec_snoc, if_pos rfl]
      by_cases hlast : movedVec past l < (occ (vecs ls) l).length - 1
      · have hin : l ∈ r.removal := by
          rw [← List.count_pos_iff, hrem]; omega
        refine ⟨_, { r with mapVec := A ++ B, removal := r.removal.erase l }, hans, ?_, ?_⟩
        · simp [Call.run, readVector, label2label_ok l hc1 hc3, hf, bind, Except.bind, he, pure, Except.pure, clean,
            hin]
        · refine ⟨?_, ?_, ?_⟩
          · intro l' hl'; rw [hmv]; exact h.str l' hl'
          · intro l' hl'
            by_cases hll : l' = l
            · subst hll
              rw [hmt', ← hlt hlast]
              exact hAB
            · rw [hmt l' hll, ← h.vec l' hl']
              exact hother l' hll
          · intro l' hl'
            by_cases hll : l' = l
            · subst hll
              show (r.removal.erase l').count l' = _
              rw [hmt', hmv, List.count_erase_self, hrem, hv0]
              simp; omega
            · show (r.removal.erase l).count l' = _
              rw [hmt l' hll, hmv, List.count_erase_of_ne hll, h.rem l' hl']
      · have hin : l ∉ r.removal := by
          rw [← List.count_eq_zero, hrem]; omega
        refine ⟨_, r, hans, ?_, ?_⟩
        · simp [Call.run, readVector, label2label_ok l hc1 hc3, hf, bind, Except.bind, he, pure, Except.pure, clean,
            hin]
        · refine ⟨?_, ?_, ?_⟩
          · intro l' hl'; rw [hmv]; exact h.str l' hl'
          · intro l' hl'
            by_cases hll : l' = l
            · subst hll
              rw [hmt', hge hlast]
              exact hstr
            · rw [hmt l' hll, ← h.vec l' hl']
          · intro l' hl'
            by_cases hll : l' = l
            · subst hll
              rw [hmt', hmv, hrem, hv0]
              simp; omega
            · rw [hmt l' hll, hmv, h.rem l' hl']

theorem calls_ok (ls : List Line) (hk : KindsApart ls) (cs : List Call) (hcs : ∀ c ∈ cs, c.Ok) (past : List Call)
    (r : Readable) (h : After ls past r) : runCalls r cs = .ok (answers ls past cs) := by
  induction cs generalizing past r with
  | nil => rfl
  | cons c cs ih =>
    have hrest := ih (fun c' hc' => hcs c' (by simp [hc']))
    rcases call_step ls hk past r h c (hcs c (by simp)) with ⟨h1, h2, h3⟩ | ⟨a, r', h1, h2, h3⟩
    · simp only [runCalls, h2, hrest _ _ h3, answers, h1]; rfl
    · simp only [runCalls, h2, hrest _ _ h3, answers, h1]; rfl

theorem after_load (ls : List Line) (r : Readable) (h : Rep r.mapStr r.mapVec r.removal (texts ls) (vecs ls)) :
    After ls [] r := by
  have hz1 : ∀ l, movedText [] l = 0 := fun l => rfl
  have hz2 : ∀ l, movedVec [] l = 0 := fun l => rfl
  have hm : ∀ (V : Type) (L : List V) (l : Str),
      (L.mapIdx fun i v => (keyOf l i, v)).map (·.2) = L := by
    intro V L l
    apply List.ext_getElem
    · simp
    · intro i h1 h2; simp
  refine ⟨?_, ?_, ?_⟩
  · intro l hl
    simp only [hz1, Nat.zero_min, List.drop_zero, vals, h.1.keys l hl, hm]
  · intro l hl
    simp only [hz2, Nat.zero_min, List.drop_zero, vals, h.2.1.keys l hl, hm]
  · intro l hl
    rw [hz1, hz2, h.2.2 l hl]; rfl

/-! ## Properties -/

/-- **C47** Reading a well formed file and calling `readline` and `read` in any order answers every call as
the specification says: each call moves on to the next occurrence of its label only, and the last
occurrence is given again and again. -/
theorem read_spec (chk : Check) (ls : List Line) (h : FileOk chk ls) (hk : KindsApart ls) (cs : List Call)
    (hcs : ∀ c ∈ cs, c.Ok) :
    ∃ r, load chk (render ls) = .ok r ∧ runCalls r cs = .ok (answers ls [] cs) := by
  obtain ⟨r, h1, h2⟩ := load_ok chk ls h
  exact ⟨r, h1, calls_ok ls hk cs hcs [] r (after_load ls r h2)⟩

/-- **C47** A label may be given to `readline` with or without the `=` at its end. -/
theorem readline_equal (r : Readable) (l : Str) (h1 : l ≠ []) (h2 : l.getLast? ≠ some '=') (b f : Bool) :
    readline r (l ++ ['=']) b f = readline r l b f := by
  have : label2label (l ++ ['=']) = .ok l := by simp [label2label]
  simp only [readline, this, label2label_ok l h1 h2]

/-- A checker that accepts everything and has no special lists. -/
def anyCheck : Check := ⟨fun _ => true, fun _ _ => true, fun _ _ => some false⟩

/-- A file with repeated labels. -/
def file1 : List Line :=
  [.comment "a test".toList, .text "U".toList "3=x".toList, .vec "J".toList ["2".toList, "1".toList, "-4".toList],
   .text "U".toList "5".toList, .blank, .expand "A".toList "B".toList ["7".toList, "8".toList],
   .text "V".toList "1".toList, .vec "J".toList ["1".toList, "9".toList]]

example : render file1 = "#a test\nU=3=x\nJ 2 1 -4\nU=5\n\n!A$iB 7 8\nV=1\nJ 1 9\n".toList := by decide +kernel

example : FileOk anyCheck file1 := by
  refine ⟨?_, ?_, fun _ => rfl, fun _ _ => rfl, by decide +kernel⟩
  · intro l hl
    simp only [file1, List.mem_cons, List.not_mem_nil, or_false] at hl
    rcases hl with rfl | rfl | rfl | rfl | rfl | rfl | rfl | rfl
    · show '\n' ∉ _; decide +kernel
    · exact ⟨⟨⟨'U', [], rfl, by unfold NumberChar; decide⟩, by unfold Plain; decide⟩, by decide,
        ⟨'3', "=x".toList, rfl, by unfold Plain; decide⟩, by unfold Plain; decide +kernel⟩
    · refine ⟨⟨⟨'J', [], rfl, by unfold NumberChar; decide⟩, by unfold Plain; decide⟩, by decide, ?_, "2".toList,
        ["1".toList, "-4".toList], 2, rfl, by decide, by decide +kernel, .inr ⟨rfl, rfl⟩⟩
      intro n hn
      simp only [List.mem_cons, List.not_mem_nil, or_false] at hn
      rcases hn with rfl | rfl | rfl
      · exact ⟨⟨_, _, rfl, by unfold NumberChar; decide⟩, by unfold Plain; decide⟩
      · exact ⟨⟨_, _, rfl, by unfold NumberChar; decide⟩, by unfold Plain; decide⟩
      · exact ⟨⟨_, _, rfl, by unfold NumberChar; decide⟩, by unfold Plain; decide⟩
    · exact ⟨⟨⟨'U', [], rfl, by unfold NumberChar; decide⟩, by unfold Plain; decide⟩, by decide,
        ⟨'5', [], rfl, by unfold Plain; decide⟩, by unfold Plain; decide +kernel⟩
    · trivial
    · refine ⟨⟨⟨'A', [], rfl, by unfold NumberChar; decide⟩, by unfold Plain; decide⟩, by unfold Plain; decide, by decide, by decide, ?_⟩
      intro n hn
      simp only [List.mem_cons, List.not_mem_nil, or_false] at hn
      rcases hn with rfl | rfl
      · exact ⟨⟨_, _, rfl, by unfold Plain; decide⟩, by unfold Plain; decide⟩
      · exact ⟨⟨_, _, rfl, by unfold Plain; decide⟩, by unfold Plain; decide⟩
    · exact ⟨⟨⟨'V', [], rfl, by unfold NumberChar; decide⟩, by unfold Plain; decide⟩, by decide,
        ⟨'1', [], rfl, by unfold Plain; decide⟩, by unfold Plain; decide +kernel⟩
    · refine ⟨⟨⟨'J', [], rfl, by unfold NumberChar; decide⟩, by unfold Plain; decide⟩, by decide, ?_, "1".toList,
        ["9".toList], 1, rfl, by decide, by decide +kernel, .inr ⟨rfl, rfl⟩⟩
      intro n hn
      simp only [List.mem_cons, List.not_mem_nil, or_false] at hn
      rcases hn with rfl | rfl
      · exact ⟨⟨_, _, rfl, by unfold NumberChar; decide⟩, by unfold Plain; decide⟩
      · exact ⟨⟨_, _, rfl, by unfold NumberChar; decide⟩, by unfold Plain; decide⟩
  · simp [CommentsOk, file1]

example : KindsApart file1 := by
  intro l
  by_cases h : l = "J".toList
  · subst h; left; decide +kernel
  · right
    have e : vecs file1 = [("J".toList, ["2".toList, "1".toList, "-4".toList]), ("J".toList, ["1".toList, "9".toList])] := rfl
    rw [e, occ, List.filter_eq_nil_iff.2]
    · rfl
    · intro a ha
      simp only [List.mem_cons, List.not_mem_nil, or_false] at ha
      rcases ha with rfl | rfl <;> simpa using fun e => h e.symm

/-- The calls on that file, answered by the model. -/
example : (load anyCheck (render file1)).bind (fun r => runCalls r
    [.text "U".toList true, .vec "J".toList, .text "U".toList false, .text "U".toList true, .text "U".toList true,
      .text "A1B".toList true, .text "W".toList true, .vec "J".toList, .vec "J".toList]) =
    .ok [some (.text "3=x".toList), some (.vec ["1".toList, "-4".toList]), some (.text "5".toList),
      some (.text "5".toList), some (.text "5".toList), some (.text "8".toList), none, some (.vec ["9".toList]),
      some (.vec ["9".toList])] := by decide +kernel

/-- If a label is given both texts and lists, reading the list stops the texts from moving on: the second call of
`readline` gives the first text again. -/
theorem kinds_interfere_fails :
    (load anyCheck "X=1\nX=2\nX 1 5\n".toList).bind (fun r => runCalls r
      [.vec "X".toList, .text "X".toList true, .text "X".toList true]) =
    .ok [some (.vec ["5".toList]), some (.text "1".toList), some (.text "1".toList)] := by decide +kernel

/-- A comment line after a list of numbers makes the list be stored under the next label. -/
theorem comment_after_vector_fails :
    (load anyCheck "J 1 5\n#note\nU=3\n".toList).bind (fun r => runCalls r [.vec "J".toList, .vec "U".toList]) =
    .ok [none, some (.vec ["5".toList])] := by decide +kernel

/-- A comment right after a value spoils the value and the next label. -/
theorem comment_after_value_fails :
    (load anyCheck "U=3#note\nV=4\n".toList).bind (fun r => runCalls r
      [.text "U".toList true, .text "V".toList true, .text "3V".toList true]) =
    .ok [none, none, some (.text "4".toList)] := by decide +kernel

/-- The last character of a file is read twice: without an end of line at the end, the value 8 becomes 88. -/
theorem readFile_fails :
    (loadFile anyCheck "U=8".toList).bind (fun r => runCalls r [.text "U".toList true]) =
    .ok [some (.text "88".toList)] := by decide +kernel

/-- A file that ends with an end of line is read as it is. -/
theorem loadFile_ok (chk : Check) (ls : List Line) (h : FileOk chk ls) (hk : KindsApart ls) (hne : ls ≠ [])
    (cs : List Call) (hcs : ∀ c ∈ cs, c.Ok) :
    ∃ r, loadFile chk (render ls) = .ok r ∧ runCalls r cs = .ok (answers ls [] cs) := by
  have hlast : (render ls).getLastD '\x00' = '\n' := by
    obtain ⟨init, l, rfl⟩ := List.eq_nil_or_concat ls |>.resolve_left hne
    simp [render, render_body]
  have he : readFile (render ls) = render (ls ++ [.blank]) := by
    rw [readFile, hlast]
    simp [render, Line.render]
  have ht : texts (ls ++ [.blank]) = texts ls := by simp [texts, Line.texts]
  have hv : vecs (ls ++ [.blank]) = vecs ls := by simp [vecs, Line.vecs]
  have hcm : ∀ f, CommentsOk f ls → CommentsOk f (ls ++ [.blank]) := by
    clear hne hlast he ht hv h hk
    induction ls with
    | nil => intro f _; simp [CommentsOk]
    | cons l ls ih =>
      intro f hf
      cases l with
      | comment t => exact ⟨hf.1, ih _ hf.2⟩
      | text a b => exact ih _ hf
      | vec a b => exact ih _ hf
      | expand a b c => exact ih _ hf
      | blank => exact ih _ hf
  have hok : FileOk chk (ls ++ [.blank]) := by
    refine ⟨?_, hcm _ h.comments, h.labels, h.values, by rw [ht, hv]; exact h.size⟩
    intro l hl
    rcases List.mem_append.1 hl with hl | hl
    · exact h.lines l hl
    · rw [List.mem_singleton.1 hl]; trivial
  obtain ⟨r, h1, h2⟩ := read_spec chk (ls ++ [.blank]) hok (by intro l; rw [ht, hv]; exact hk l) cs hcs
  refine ⟨r, by rw [loadFile, he]; exact h1, ?_⟩
  rw [h2]
  congr 1
  have : ∀ past, answers (ls ++ [.blank]) past cs = answers ls past cs := by
    clear h1 h2 hcs
    induction cs with
    | nil => intro _; rfl
    | cons c cs ih =>
      intro past
      have : answer (ls ++ [.blank]) past c = answer ls past c := by
        cases c <;> simp [answer, ht, hv]
      simp only [answers, this, ih]
  exact this []

/-- `readline` with `forceRemoval` of a label that occurs once is undefined. -/
theorem force_removal_fails :
    (load anyCheck "U=8\n".toList).bind (fun r => (readline r "U".toList true true).map (·.1)) = ubOut := by
  decide +kernel

end Verif.InputNg
