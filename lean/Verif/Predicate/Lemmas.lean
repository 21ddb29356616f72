import Verif.Predicate.Model
import Verif.Predicate.Spec
import Verif.StrUtil.Props
import Verif.Ast.Props

namespace Verif.Predicate

open Verif.Str Verif.StrUtil Verif.Ast

/-! ## The operator search -/

theorem opLen_two (d : List Char) : operatorLength (d.take 2) = 2 ↔ ∃ q ∈ ops, q.length = 2 ∧ q <+: d := by
  unfold operatorLength
  constructor
  · intro h
    split_ifs at h with hm
    exact ⟨_, hm, h, List.take_prefix _ _⟩
  · rintro ⟨q, hq, hl, hp⟩
    have : q = d.take 2 := by rw [List.prefix_iff_eq_take] at hp; rw [hp, hl]
    rw [← this, if_pos hq, hl]

theorem opLen_one (d : List Char) : operatorLength (d.take 1) = 1 ↔ ∃ q ∈ ops, q.length = 1 ∧ q <+: d := by
  unfold operatorLength
  constructor
  · intro h
    split_ifs at h with hm
    exact ⟨_, hm, h, List.take_prefix _ _⟩
  · rintro ⟨q, hq, hl, hp⟩
    have : q = d.take 1 := by rw [List.prefix_iff_eq_take] at hp; rw [hp, hl]
    rw [← this, if_pos hq, hl]

theorem ops_length : ∀ q ∈ ops, q.length = 1 ∨ q.length = 2 := by decide

theorem findOp_spec (pred : List Char) : ∀ (steps i loc len : Nat), findOp pred steps i = some (loc, len) ↔
    i ≤ loc ∧ loc < i + steps ∧ (∀ j, i ≤ j → j < loc → ∀ q ∈ ops, ¬ q <+: pred.drop j) ∧
    (∃ q ∈ ops, q.length = len ∧ q <+: pred.drop loc) ∧
    ∀ q ∈ ops, q <+: pred.drop loc → q.length ≤ len
  | 0, i, loc, len => by
    simp only [findOp, reduceCtorEq, false_iff]
    rintro ⟨h1, h2, _⟩; omega
  | steps + 1, i, loc, len => by
    rw [findOp]
    split_ifs with h2 h1
    · have h2' := (opLen_two _).1 h2
      simp only [Option.some.injEq, Prod.mk.injEq]
      constructor
      · rintro ⟨rfl, rfl⟩
        refine ⟨le_refl _, by omega, fun j _ _ => by omega, h2', ?_⟩
        intro q hq _
        have := ops_length q hq; omega
      · rintro ⟨g1, g2, g3, ⟨q, hq, hl, hp⟩, g5⟩
        obtain ⟨q2, hq2, hl2, hp2⟩ := h2'
        have hi : i = loc := by
          by_contra hne
          exact g3 i (le_refl _) (by omega) q2 hq2 hp2
        subst hi
        have := g5 q2 hq2 hp2
        have := ops_length q hq
        exact ⟨rfl, by omega⟩
    · have h1' := (opLen_one _).1 h1
      simp only [Option.some.injEq, Prod.mk.injEq]
      have hmax : ∀ q ∈ ops, q <+: pred.drop i → q.length ≤ 1 := by
        intro q hq hp
        rcases ops_length q hq with h | h
        · omega
        · exact absurd ((opLen_two _).2 ⟨q, hq, h, hp⟩) h2
      constructor
      · rintro ⟨rfl, rfl⟩
        exact ⟨le_refl _, by omega, fun j _ _ => by omega, h1', hmax⟩
      · rintro ⟨g1, g2, g3, ⟨q, hq, hl, hp⟩, g5⟩
        obtain ⟨q2, hq2, hl2, hp2⟩ := h1'
        have hi : i = loc := by
          by_contra hne
          exact g3 i (le_refl _) (by omega) q2 hq2 hp2
        subst hi
        have := g5 q2 hq2 hp2
        have := hmax q hq hp
        exact ⟨rfl, by omega⟩
    · have hno : ∀ q ∈ ops, ¬ q <+: pred.drop i := by
        intro q hq hp
        rcases ops_length q hq with h | h
        · exact h1 ((opLen_one _).2 ⟨q, hq, h, hp⟩)
        · exact h2 ((opLen_two _).2 ⟨q, hq, h, hp⟩)
      rw [findOp_spec pred steps (i + 1) loc len]
      constructor
      · rintro ⟨g1, g2, g3, g4, g5⟩
        refine ⟨by omega, by omega, ?_, g4, g5⟩
        intro j hj1 hj2
        by_cases hji : j = i
        · subst hji; exact hno
        · exact g3 j (by omega) hj2
      · rintro ⟨g1, g2, g3, ⟨q, hq, hl, hp⟩, g5⟩
        have hne : i ≠ loc := by
          rintro rfl; exact hno q hq hp
        exact ⟨by omega, by omega, fun j hj1 hj2 => g3 j (by omega) hj2, ⟨q, hq, hl, hp⟩, g5⟩

/-- The constructor accepts exactly the strings `lhs op rhs` with both sides present, where `op` is the
leftmost operator, and the longest at its place. -/
theorem ctor_iff (pred l o r : List Char) : Simple.ctor pred = some ⟨l, o, r⟩ ↔
    pred = l ++ o ++ r ∧ l ≠ [] ∧ r ≠ [] ∧ o ∈ ops ∧
    (∀ j, j < l.length → ∀ q ∈ ops, ¬ q <+: pred.drop j) ∧
    ∀ q ∈ ops, q <+: pred.drop l.length → q.length ≤ o.length := by
  unfold Simple.ctor
  constructor
  · intro h
    split_ifs at h with hn
    simp only [bind, Option.bind_eq_some_iff, Prod.exists] at h
    obtain ⟨loc, len, hf, l', hl, o', ho, r', hr, h⟩ := h
    split_ifs at h with he
    simp only [Option.some.injEq, Simple.mk.injEq] at h
    obtain ⟨rfl, rfl, rfl⟩ := h
    obtain ⟨g1, g2, g3, ⟨q, hq, hql, hp⟩, g5⟩ := (findOp_spec _ _ _ _ _).1 hf
    unfold substr at hl ho hr
    split_ifs at hl ho hr
    simp only [Option.some.injEq, List.drop_zero] at hl ho hr
    push Not at he
    have ho' : o' = q := by rw [← ho, ← hql]; exact (List.prefix_iff_eq_take.1 hp).symm
    have hll : l'.length = loc := by rw [← hl, List.length_take]; omega
    refine ⟨?_, he.1, he.2, ho' ▸ hq, ?_, ?_⟩
    · have hr2 : r' = pred.drop (loc + len) := by
        rw [← hr]; apply List.take_of_length_le; rw [List.length_drop]; omega
      rw [← hl, ← ho, hr2, List.append_assoc, ← List.drop_drop, List.take_append_drop, List.take_append_drop]
    · intro j hj; exact g3 j (by omega) (by omega)
    · rw [hll, ho', hql]; exact g5
  · rintro ⟨hp, hl, hr, ho, g3, g5⟩
    have hl' := List.length_pos_iff.2 hl
    have hr' := List.length_pos_iff.2 hr
    have ho' := ops_length o ho
    have hlen : pred.length = l.length + o.length + r.length := by rw [hp]; simp; omega
    rw [if_neg (by omega)]
    have hf : findOp pred (pred.length - 1) 0 = some (l.length, o.length) := by
      rw [findOp_spec]
      refine ⟨by omega, by omega, fun j _ hj => g3 j hj, ⟨o, ho, rfl, ?_⟩, g5⟩
      rw [hp, List.append_assoc, List.drop_left]; exact List.prefix_append _ _
    have e1 : substr pred 0 l.length = some l := by
      unfold substr; rw [if_pos (by omega), List.drop_zero, hp, List.append_assoc, List.take_left]
    have e2 : substr pred l.length o.length = some o := by
      unfold substr; rw [if_pos (by omega), hp, List.append_assoc, List.drop_left, List.take_left]
    have e3 : substr pred (l.length + o.length) (pred.length - l.length - o.length) = some r := by
      unfold substr
      rw [if_pos (by omega), hlen, show l.length + o.length + r.length - l.length - o.length = r.length by omega, hp,
        ← List.length_append, List.drop_left, List.take_of_length_le (le_refl _)]
    simp only [hf, bind, Option.bind_some, e1, e2, e3]
    rw [if_neg (by simp [hl, hr])]

/-! ## Joining symbols -/

theorem inter_nil (c : Char) : [c].intercalate [] = [] := rfl
theorem inter_one (c : Char) (t : List Char) : [c].intercalate [t] = t := by simp [List.intercalate]
theorem inter_cons (c : Char) (t u : List Char) (r : List (List Char)) :
    [c].intercalate (t :: u :: r) = t ++ c :: [c].intercalate (u :: r) := by
  simp [List.intercalate, List.intersperse_cons₂]

theorem mem_inter (c : Char) : ∀ (L : List (List Char)) (x : Char), x ∈ [c].intercalate L →
    x = c ∨ ∃ t ∈ L, x ∈ t
  | [], x, h => by simp [inter_nil] at h
  | [t], x, h => by rw [inter_one] at h; exact Or.inr ⟨t, by simp, h⟩
  | t :: u :: r, x, h => by
    rw [inter_cons, List.mem_append, List.mem_cons] at h
    rcases h with h | h | h
    · exact Or.inr ⟨t, by simp, h⟩
    · exact Or.inl h
    · rcases mem_inter c (u :: r) x h with h | ⟨t', h1, h2⟩
      · exact Or.inl h
      · exact Or.inr ⟨t', List.mem_cons_of_mem _ h1, h2⟩

theorem inter_ne_nil (c : Char) (L : List (List Char)) (hL : L ≠ []) (h : ∀ t ∈ L, t ≠ []) :
    [c].intercalate L ≠ [] := by
  match L, hL with
  | [t], _ => rw [inter_one]; exact h t (by simp)
  | t :: u :: r, _ => rw [inter_cons]; simp

/-- A name without `c` that occurs in a joined list occurs inside one of the parts. -/
theorem occurs (c : Char) (name : List Char) (hn : name ≠ []) (hc : c ∉ name) : ∀ (L : List (List Char)) (i : Nat),
    name <+: ([c].intercalate L).drop i →
    ∃ pre t post a b, L = pre ++ t :: post ∧ t = a ++ name ++ b ∧
      i = ([c].intercalate (pre ++ [a])).length
  | [], i, h => by simp [inter_nil] at h; exact absurd h hn
  | [t], i, h => by
    rw [inter_one] at h
    obtain ⟨b, hb⟩ := h
    have hi : i ≤ t.length := by
      by_contra hlt
      rw [List.drop_eq_nil_of_le (by omega)] at hb
      simp at hb; exact hn hb.1
    refine ⟨[], t, [], t.take i, b, rfl, ?_, ?_⟩
    · rw [List.append_assoc, hb, List.take_append_drop]
    · rw [List.nil_append, inter_one, List.length_take]; omega
  | t :: u :: r, i, h => by
    rw [inter_cons] at h
    by_cases hi : i ≤ t.length
    · rw [List.drop_append_of_le_length hi] at h
      have hpre : name <+: t.drop i := by
        have h2 : t.drop i ++ [c] <+: t.drop i ++ c :: [c].intercalate (u :: r) :=
          ⟨[c].intercalate (u :: r), by simp⟩
        rcases List.prefix_or_prefix_of_prefix h h2 with h | h
        · rcases List.prefix_concat_iff.1 h with h | h
          · exact absurd (h ▸ by simp) hc
          · exact h
        · exact absurd (h.subset (by simp)) hc
      obtain ⟨b, hb⟩ := hpre
      refine ⟨[], t, u :: r, t.take i, b, rfl, ?_, ?_⟩
      · rw [List.append_assoc, hb, List.take_append_drop]
      · rw [List.nil_append, inter_one, List.length_take]; omega
    · obtain ⟨k, rfl⟩ : ∃ k, i = t.length + 1 + k := ⟨i - t.length - 1, by omega⟩
      have : (t ++ c :: [c].intercalate (u :: r)).drop (t.length + 1 + k) = ([c].intercalate (u :: r)).drop k := by
        rw [Nat.add_assoc, List.drop_length_add_append, Nat.add_comm, List.drop_succ_cons]
      rw [this] at h
      obtain ⟨pre, t', post, a, b, h1, h2, h3⟩ := occurs c name hn hc (u :: r) k h
      refine ⟨t :: pre, t', post, a, b, by rw [h1]; rfl, h2, ?_⟩
      have : ∃ w ws, pre ++ [a] = w :: ws := by
        cases hw : pre ++ [a] with
        | nil => simp at hw
        | cons w ws => exact ⟨w, ws, rfl⟩
      obtain ⟨w, ws, hw⟩ := this
      rw [List.cons_append, hw, inter_cons, ← hw, h3]
      simp; omega

/-- Replacing a whole part of a joined list. -/
theorem inter_middle (c : Char) (t : List Char) : ∀ (pre post : List (List Char)), ∃ x y,
    (∀ t : List Char, [c].intercalate (pre ++ t :: post) = x ++ t ++ y) ∧ x.length = ([c].intercalate (pre ++ [[]])).length
  | [], [] => ⟨[], [], by intro t; simp [inter_one], by simp [inter_one]⟩
  | [], p :: post => ⟨[], c :: [c].intercalate (p :: post), by intro t; simp [inter_cons], by simp [inter_one]⟩
  | [p], post => by
    obtain ⟨x, y, h, hx⟩ := inter_middle c t [] post
    refine ⟨p ++ c :: x, y, ?_, ?_⟩
    · intro t
      rw [List.cons_append, List.nil_append, inter_cons]
      have := h t
      simp only [List.nil_append] at this
      rw [this]; simp
    · simp [inter_cons, inter_one] at hx ⊢
      simpa using hx
  | p :: p' :: pre, post => by
    obtain ⟨x, y, h, hx⟩ := inter_middle c t (p' :: pre) post
    refine ⟨p ++ c :: x, y, ?_, ?_⟩
    · intro t
      have := h t
      simp only [List.cons_append] at this ⊢
      rw [inter_cons, this]; simp
    · simp only [List.cons_append] at hx ⊢
      rw [inter_cons, List.length_append, List.length_append, List.length_cons, List.length_cons, hx]


/-! ## Substituting a variable -/

theorem replaceVariable_spec (name val : List Char) (hn : name ≠ []) (hc : ':' ∉ name) (hv : ¬ name <:+: val) :
    ∀ (fuel : Nat) (L : List (List Char)), (∀ t ∈ L, name <:+: t → t = name) → L.count name < fuel →
      replaceVariable name val fuel ([':'].intercalate L) =
        some ([':'].intercalate (L.map fun t => if t = name then val else t))
  | 0, L, _, h => by omega
  | fuel + 1, L, hL, hf => by
    rw [replaceVariable]
    cases hfi : find ([':'].intercalate L) name 0 with
    | none =>
      simp only
      have : ∀ t ∈ L, t ≠ name := by
        rintro t ht rfl
        obtain ⟨pre, post, rfl⟩ := List.append_of_mem ht
        obtain ⟨x, y, h, _⟩ := inter_middle ':' t pre post
        have := find_none hfi x.length (by omega) (by rw [h t]; simp)
        apply this
        rw [h t, List.append_assoc, List.drop_left]
        exact List.prefix_append _ _
      congr 2
      symm
      calc L.map (fun t => if t = name then val else t) = L.map id := by
            apply List.map_congr_left
            intro t ht; simp [this t ht]
        _ = L := List.map_id L
    | some i =>
      simp only
      obtain ⟨_, _, hp, _⟩ := find_some hfi
      obtain ⟨pre, t, post, a, b, rfl, ht, hi⟩ := occurs ':' name hn hc L i hp
      have htn : t = name := hL t (by simp) ⟨a, b, ht.symm⟩
      have hab : a = [] ∧ b = [] := by
        have := congrArg List.length ht
        rw [htn] at this
        simp at this
        exact ⟨List.eq_nil_of_length_eq_zero (by omega), List.eq_nil_of_length_eq_zero (by omega)⟩
      obtain ⟨rfl, rfl⟩ := hab
      obtain ⟨x, y, h, hx⟩ := inter_middle ':' t pre post
      rw [← hx] at hi
      have e1 : (if i = 0 then some [] else substr ([':'].intercalate (pre ++ t :: post)) 0 i) = some x := by
        split_ifs with h0
        · rw [h0] at hi; rw [List.eq_nil_of_length_eq_zero hi.symm]
        · rw [h t]; unfold substr
          rw [if_pos (by omega), List.drop_zero, hi, List.append_assoc, List.take_left]
      have e2 : substr ([':'].intercalate (pre ++ t :: post)) (i + name.length)
          (([':'].intercalate (pre ++ t :: post)).length - name.length - i) = some y := by
        rw [h t, htn]; unfold substr
        rw [if_pos (by simp; omega), hi, ← List.length_append, List.drop_left, List.take_of_length_le]
        simp; omega
      simp only [e1, e2, bind, Option.bind_some]
      rw [← h val, replaceVariable_spec name val hn hc hv fuel (pre ++ val :: post)]
      · have hvn : val ≠ name := by rintro rfl; exact hv (List.infix_refl _)
        simp [htn, hvn]
      · intro u hu hin
        simp only [List.mem_append, List.mem_cons] at hu
        rcases hu with hu | rfl | hu
        · exact hL u (by simp [hu]) hin
        · exact absurd hin hv
        · exact hL u (by simp [hu]) hin
      · have hvn : val ≠ name := by rintro rfl; exact hv (List.infix_refl _)
        rw [htn] at hf
        simp [List.count_cons, hvn] at hf ⊢
        omega

/-- The text a symbol is replaced with. -/
def subst {V : Type} (ttos : V → List Char) : List (List Char × V) → List Char → List Char
  | [], s => s
  | (n, v) :: vars, s => if s = n then ttos v else subst ttos vars s

theorem subst_fix {V : Type} (ttos : V → List Char) (vars : List (List Char × V)) (s : List Char)
    (h : ∀ p ∈ vars, s ≠ p.1) : subst ttos vars s = s := by
  induction vars with
  | nil => rfl
  | cons p vars ih =>
    obtain ⟨n, v⟩ := p
    rw [subst, if_neg (h (n, v) (by simp)), ih fun p hp => h p (by simp [hp])]

theorem replaceVariables_spec {V : Type} (ttos : V → List Char) (fuel : Nat) : ∀ (vars : List (List Char × V))
    (L : List (List Char)), (∀ p ∈ vars, p.1 ≠ [] ∧ ':' ∉ p.1) → (∀ p ∈ vars, ∀ q ∈ vars, ¬ p.1 <:+: ttos q.2) →
    (∀ t ∈ L, ∀ p ∈ vars, p.1 <:+: t → t = p.1) → L.length < fuel →
    replaceVariables ttos fuel vars ([':'].intercalate L) = some ([':'].intercalate (L.map (subst ttos vars)))
  | [], L, _, _, _, _ => by
    have : L.map (subst ttos []) = L := by
      conv_rhs => rw [← List.map_id L]
      apply List.map_congr_left; intro t _; rfl
    rw [this]; rfl
  | (n, v) :: vars, L, hn, ha, hL, hf => by
    rw [replaceVariables]
    have h1 := hn (n, v) (by simp)
    rw [replaceVariable_spec n (ttos v) h1.1 h1.2 (ha (n, v) (by simp) (n, v) (by simp)) fuel L ?_ ?_]
    · simp only [bind, Option.bind_some]
      rw [replaceVariables_spec ttos fuel vars]
      · congr 2
        rw [List.map_map]
        apply List.map_congr_left
        intro t ht
        simp only [Function.comp, subst]
        split_ifs with h
        · apply subst_fix
          intro p hp he
          exact ha p (by simp [hp]) (n, v) (by simp) (he ▸ List.infix_refl _)
        · rfl
      · exact fun p hp => hn p (by simp [hp])
      · exact fun p hp q hq => ha p (by simp [hp]) q (by simp [hq])
      · intro t ht p hp hin
        obtain ⟨u, hu, rfl⟩ := List.mem_map.1 ht
        split_ifs at hin ⊢ with h
        · exact absurd hin (ha p (by simp [hp]) (n, v) (by simp))
        · exact hL u hu p (by simp [hp]) hin
      · simpa using hf
    · exact fun t ht => hL t ht (n, v) (by simp)
    · have := List.count_le_length (a := n) (l := L); omega

/-! ## Substitution in trees -/

/-- Replace the symbols of a tree. -/
def mapExpr (f : String → String) : Expr → Expr
  | .node c as => .node (f c) (as.attach.map fun a => mapExpr f a.1)
  decreasing_by
    have := a.2
    have := List.sizeOf_lt_of_mem this
    simp only [Expr.node.sizeOf_spec]; omega

theorem mapExpr_node (f : String → String) (c : String) (as : List Expr) :
    mapExpr f (.node c as) = .node (f c) (as.map (mapExpr f)) := by
  rw [mapExpr]
  congr 1
  conv_rhs => rw [← List.attach_map_val (l := as)]

theorem mapExpr_code (f : String → String) (e : Expr) : (mapExpr f e).code = f e.code := by
  cases e; rw [mapExpr_node]; rfl

theorem mapExpr_args (f : String → String) (e : Expr) : (mapExpr f e).args = e.args.map (mapExpr f) := by
  cases e; rw [mapExpr_node]; rfl

theorem mapExpr_size (f : String → String) : ∀ (n : Nat) (e : Expr), e.size ≤ n → (mapExpr f e).size = e.size
  | 0, e, h => by have := e.size_pos; omega
  | n + 1, .node c as, h => by
    rw [mapExpr_node, Expr.size_node, Expr.size_node, List.map_map]
    rw [Expr.size_node] at h
    congr 2
    apply List.map_congr_left
    intro a ha
    apply mapExpr_size f n a
    obtain ⟨l, hl, rfl⟩ := List.getElem_of_mem ha
    have := arg_size hl
    unfold tsize at this
    omega

theorem mapExpr_levels (f : String → String) : ∀ (n : Nat) (q : List Expr),
    Expr.levels n (q.map (mapExpr f)) = (Expr.levels n q).map f
  | 0, q => rfl
  | n + 1, q => by
    rw [Expr.levels, Expr.levels, List.map_append, ← mapExpr_levels f n, List.map_map, List.map_map]
    congr 1
    · apply List.map_congr_left; intro e _; exact mapExpr_code f e
    · congr 1
      unfold Expr.nextLevel
      rw [List.flatMap_map, List.map_flatMap]
      simp only [mapExpr_args]

theorem levels_subset : ∀ (m n : Nat) (q r : List Expr), m ≤ n → q ⊆ r → Expr.levels m q ⊆ Expr.levels n r
  | 0, n, q, r, _, _ => by simp [Expr.levels]
  | m + 1, 0, q, r, h, _ => by omega
  | m + 1, n + 1, q, r, h, hq => by
    rw [Expr.levels, Expr.levels]
    intro s hs
    rw [List.mem_append] at hs ⊢
    rcases hs with hs | hs
    · obtain ⟨e, he, rfl⟩ := List.mem_map.1 hs
      exact Or.inl (List.mem_map_of_mem (hq he))
    · refine Or.inr (levels_subset m n _ _ (by omega) ?_ hs)
      intro e he
      unfold Expr.nextLevel at he ⊢
      rw [List.mem_flatMap] at he ⊢
      obtain ⟨a, ha, he⟩ := he
      exact ⟨a, hq ha, he⟩

theorem symbols_code (c : String) (as : List Expr) : c ∈ symbols (.node c as) := by
  unfold symbols
  rw [Expr.size_node, Nat.add_comm, Expr.levels]
  simp [Expr.code]

theorem symbols_arg (c : String) (as : List Expr) (a : Expr) (ha : a ∈ as) :
    symbols a ⊆ symbols (.node c as) := by
  unfold symbols
  rw [Expr.size_node, Nat.add_comm, Expr.levels]
  apply List.subset_append_of_subset_right
  apply levels_subset
  · obtain ⟨l, hl, rfl⟩ := List.getElem_of_mem ha
    have := arg_size hl
    unfold tsize at this
    omega
  · intro x hx
    simp only [List.mem_singleton] at hx
    subst hx
    simpa [Expr.nextLevel, Expr.args] using ha

theorem execNode_parse {V : Type} (o : Ops V) (p : String → Option V) (c : String) (vs : List V) (h : vs ≠ []) :
    execNode { o with parse := p } c vs = execNode o c vs := by
  unfold execNode
  split <;> first | rfl | exact absurd rfl h

theorem lookup_none {V : Type} (p : String → Option V) (vars : List (List Char × V)) (s : String)
    (h : ∀ q ∈ vars, s.toList ≠ q.1) : lookup p vars s = p s := by
  induction vars with
  | nil => rfl
  | cons q vars ih =>
    obtain ⟨n, v⟩ := q
    rw [lookup, if_neg (h (n, v) (by simp)), ih fun q hq => h q (by simp [hq])]

theorem lookup_some {V : Type} (p : String → Option V) (ttos : V → List Char) (vars : List (List Char × V)) (s : String)
    (q : List Char × V) (hq : q ∈ vars) (h : s.toList = q.1) :
    ∃ r ∈ vars, lookup p vars s = some r.2 ∧ subst ttos vars s.toList = ttos r.2 := by
  induction vars with
  | nil => simp at hq
  | cons r vars ih =>
    obtain ⟨n, v⟩ := r
    by_cases hn : s.toList = n
    · exact ⟨(n, v), by simp, by rw [lookup, if_pos hn], by rw [subst, if_pos hn]⟩
    · have hq' : q ∈ vars := by
        rcases List.mem_cons.1 hq with rfl | hq
        · exact absurd h hn
        · exact hq
      obtain ⟨r, hr, h1, h2⟩ := ih hq'
      exact ⟨r, by simp [hr], by rw [lookup, if_neg hn, h1], by rw [subst, if_neg hn, h2]⟩

/-- The symbol a symbol becomes. -/
def substS {V : Type} (ttos : V → List Char) (vars : List (List Char × V)) (s : String) : String :=
  String.ofList (subst ttos vars s.toList)

theorem value_subst {V : Type} (o : Ops V) (ttos : V → List Char) (vars : List (List Char × V))
    (hv : VarsOk o ttos vars) : ∀ (n : Nat) (e : Expr) (v : V), e.size ≤ n → e.WF → Means o vars e v →
    (∀ s ∈ symbols e, NamesOk (vars.map Prod.fst) s) →
    (mapExpr (substS ttos vars) e).WF ∧ Expr.Value o (mapExpr (substS ttos vars) e) v
  | 0, e, v, h, _, _, _ => by have := e.size_pos; omega
  | n + 1, e, v, h, hw, hm, hs => by
    obtain ⟨c, as, hl, hwa⟩ := hw
    unfold Means at hm
    cases hm with
    | mk _ _ vs _ g1 g2 g3 =>
    rw [mapExpr_node]
    have hc := hs c (symbols_code c as)
    have hsub : ∀ i (hi : i < as.length), as[i].size ≤ n := by
      intro i hi
      have := arg_size hi
      rw [Expr.size_node] at h
      unfold tsize at this; omega
    have ih : ∀ i (hi : i < as.length) (hi' : i < vs.length),
        (mapExpr (substS ttos vars) as[i]).WF ∧ Expr.Value o (mapExpr (substS ttos vars) as[i]) vs[i] := by
      intro i hi hi'
      exact value_subst o ttos vars hv n as[i] vs[i] (hsub i hi) (hwa _ (List.getElem_mem hi)) (g2 i hi hi')
        (fun s hs' => hs s (symbols_arg c as _ (List.getElem_mem hi) hs'))
    have hargs : ∀ a ∈ as.map (mapExpr (substS ttos vars)), a.WF := by
      intro a ha
      obtain ⟨b, hb, rfl⟩ := List.mem_map.1 ha
      obtain ⟨i, hi, rfl⟩ := List.getElem_of_mem hb
      exact (ih i hi (by omega)).1
    by_cases hname : ∃ q ∈ vars, c.toList = q.1
    · obtain ⟨q, hq, hcq⟩ := hname
      have har : operands c = 0 := (hc q.1 (List.mem_map_of_mem hq) (hcq ▸ List.infix_refl _)).2
      have has : as = [] := List.eq_nil_of_length_eq_zero (by omega)
      subst has
      have hvs : vs = [] := List.eq_nil_of_length_eq_zero (by simpa using g1.symm)
      subst hvs
      obtain ⟨r, hr, h1, h2⟩ := lookup_some o.parse ttos vars c q hq hcq
      rw [← execNode_iff, execNode_nil, arity_eq, if_pos har] at g3
      simp only at g3
      rw [h1] at g3
      have hvr := hv.val r hr
      have hcode : substS ttos vars c = String.ofList (ttos r.2) := by unfold substS; rw [h2]
      rw [hcode, List.map_nil]
      refine ⟨.mk _ _ (by simp [hvr.2.2.1]) (by simp), .mk _ _ [] _ rfl (by simp) ?_⟩
      rw [← execNode_iff, execNode_nil, arity_eq, if_pos hvr.2.2.1, hvr.2.2.2, ← g3]
    · push Not at hname
      have hcode : substS ttos vars c = c := by
        unfold substS
        rw [subst_fix ttos vars _ hname, String.ofList_toList]
      rw [hcode]
      refine ⟨.mk _ _ (by simpa using hl) hargs, .mk _ _ vs _ (by simpa using g1) ?_ ?_⟩
      · intro i hi hi'
        rw [List.getElem_map]
        exact (ih i (by simpa using hi) hi').2
      · by_cases hvs : vs = []
        · subst hvs
          rw [← execNode_iff, execNode_nil] at g3 ⊢
          simp only [lookup_none o.parse vars c hname] at g3
          exact g3
        · rw [← execNode_iff] at g3 ⊢; rw [← g3]; exact (execNode_parse o _ c vs hvs).symm

theorem symbols_map (f : String → String) (e : Expr) : symbols (mapExpr f e) = (symbols e).map f := by
  unfold symbols
  rw [mapExpr_size f e.size e (le_refl _), ← mapExpr_levels f]; rfl

theorem inter_length (c : Char) : ∀ L : List (List Char), (∀ t ∈ L, t ≠ []) → L.length ≤ ([c].intercalate L).length
  | [], _ => by simp
  | [t], h => by
    rw [inter_one]; have := List.length_pos_iff.2 (h t (by simp)); rw [List.length_singleton]; omega
  | t :: u :: r, h => by
    have ih := inter_length c (u :: r) (fun t ht => h t (List.mem_cons_of_mem _ ht))
    rw [inter_cons]
    simp only [List.length_cons, List.length_append] at ih ⊢; omega

/-- The value of one side of a comparison. -/
theorem getValue_spec {V : Type} (o : Ops V) (ttos : V → List Char) (vars : List (List Char × V))
    (hv : VarsOk o ttos vars) (fuel : Nat) (e : Expr) (v : V) (hw : e.WF) (hm : Means o vars e v)
    (hs : ∀ s ∈ symbols e, SymbolOk s ∧ NamesOk (vars.map Prod.fst) s) (hf : (exprText e).length < fuel) :
    getValue o ttos fuel (exprText e) vars = some v := by
  have hvs := value_subst o ttos vars hv e.size e v (le_refl _) hw hm (fun s h => (hs s h).2)
  have hlen : ((symbols e).map String.toList).length < fuel := by
    have := inter_length ':' ((symbols e).map String.toList) (by
      intro t ht
      obtain ⟨s, hs', rfl⟩ := List.mem_map.1 ht
      exact (hs s hs').1.1)
    unfold exprText at hf
    unfold symbols at this ⊢
    omega
  unfold getValue
  rw [show exprText e = [':'].intercalate ((symbols e).map String.toList) from rfl,
    replaceVariables_spec ttos fuel vars _ hv.name hv.apart ?_ hlen]
  · simp only [bind, Option.bind_some]
    rw [split_join _ [':'] [':'] (by simp) (by simp) ?_]
    · simp only [Option.bind_some]
      rw [List.map_map, List.map_map]
      have : (symbols e).map ((String.ofList ∘ subst ttos vars) ∘ String.toList) =
          symbols (mapExpr (substS ttos vars) e) := by
        rw [symbols_map]; rfl
      rw [this]
      have := karva_value o _ hvs.1 v hvs.2 []
      rwa [List.append_nil] at this
    · intro t ht
      rw [List.map_map] at ht
      obtain ⟨s, hs', rfl⟩ := List.mem_map.1 ht
      simp only [Function.comp]
      by_cases hname : ∃ q ∈ vars, s.toList = q.1
      · obtain ⟨q, hq, hcq⟩ := hname
        obtain ⟨r, hr, _, h2⟩ := lookup_some o.parse ttos vars s q hq hcq
        rw [h2]
        have := hv.val r hr
        refine ⟨this.1, ?_⟩
        rintro c hc hc'
        simp only [List.mem_singleton] at hc'
        exact this.2.1 (hc' ▸ hc)
      · push Not at hname
        rw [subst_fix ttos vars _ hname]
        have := (hs s hs').1
        refine ⟨this.1, ?_⟩
        rintro c hc hc'
        simp only [List.mem_singleton] at hc'
        subst hc'
        exact this.2.1 _ hc (by simp)
  · intro t ht p hp hin
    obtain ⟨s, hs', rfl⟩ := List.mem_map.1 ht
    exact ((hs s hs').2 p.1 (List.mem_map_of_mem hp) hin).1

end Verif.Predicate
