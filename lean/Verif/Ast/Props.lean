import Verif.Ast.Spec

namespace Verif.Ast

open Expr

namespace Expr

theorem size_node (c : String) (as : List Expr) : (node c as).size = 1 + (as.map size).sum := by
  rw [size]
  congr 2
  rw [← List.attach_map_val (l := as)]

theorem size_pos (t : Expr) : 0 < t.size := by
  cases t; rw [size_node]; omega

end Expr

/-- **C36** The model's arities. -/
theorem arity_eq (c : String) : arity c = operands c := by
  unfold operands
  split <;> first | rfl | skip
  unfold arity
  rw [if_neg, if_neg, if_neg] <;> simp_all

theorem execNode_nil {V : Type} (o : Ops V) (c : String) :
    execNode o c [] = if arity c = 0 then o.parse c else none := by
  unfold execNode
  split <;> first | rfl | (rename_i h; cases h) | (rename_i h _ _ _ _ _ _ _ _ _ _; exact absurd rfl h)

theorem execNode_arity {V : Type} (o : Ops V) (c : String) (vs : List V) (v : V) (h : execNode o c vs = some v) :
    vs.length = arity c := by
  unfold execNode at h
  split at h
  all_goals first
    | (simp [arity]; done)
    | (split at h
       · simp_all
       · cases h)
    | cases h

theorem apply_length {V : Type} {o : Ops V} {c : String} {vs : List V} {v : V} (h : Apply o c vs v) :
    vs.length = operands c := by
  cases h <;> first | (symm; assumption) | rfl

/-- **C36** Each node computes what its symbol says. -/
theorem execNode_iff {V : Type} (o : Ops V) (c : String) (vs : List V) (v : V) :
    execNode o c vs = some v ↔ Apply o c vs v := by
  constructor
  · intro h
    unfold execNode at h
    split at h
    · cases h; exact .add _ _
    · cases h; exact .sub _ _
    · cases h; exact .mul _ _
    · split at h
      · cases h; exact .divTiny _ _ (by assumption)
      · cases h; exact .div _ _ (Bool.eq_false_iff.2 (by assumption))
    · split at h
      · cases h; exact .modZero _ _ (by assumption)
      · cases h; exact .mod _ _ (by assumption)
    · cases h; exact .sin _
    · cases h; exact .cos _
    · cases h; exact .log _
    · cases h; exact .exp _
    · split at h
      · cases h; exact .first _ _ _ (by assumption)
      · cases h; exact .second _ _ _ (Decidable.not_not.1 (by assumption))
    · split at h
      · exact .number _ _ (by rw [← arity_eq]; assumption) h
      · cases h
    · cases h
  · intro h
    cases h with
    | number _ _ h1 h2 => rw [execNode_nil, arity_eq, if_pos h1, h2]
    | div x y h => simp [execNode, h]
    | divTiny x y h => simp [execNode, h]
    | mod x y h => simp [execNode, h]
    | modZero x y h => simp [execNode, h]
    | first x y z h => simp [execNode, h]
    | second x y z h => simp [execNode, h]
    | _ => rfl

def tsize (q : List Expr) : Nat := (q.map size).sum

theorem tsize_append (a b : List Expr) : tsize (a ++ b) = tsize a + tsize b := by simp [tsize]

theorem tsize_cons (t : Expr) (q : List Expr) : tsize (t :: q) = t.size + tsize q := by simp [tsize]

theorem length_le_tsize : ∀ q : List Expr, q.length ≤ tsize q
  | [] => by simp
  | t :: q => by
    have := length_le_tsize q
    have := t.size_pos
    rw [tsize_cons, List.length_cons]; omega

theorem size_eq (t : Expr) : t.size = 1 + tsize t.args := by
  cases t; rw [size_node]; rfl

theorem tsize_next : ∀ q : List Expr, tsize q = q.length + tsize (nextLevel q)
  | [] => by simp [tsize, nextLevel]
  | t :: q => by
    have h := tsize_next q
    have : nextLevel (t :: q) = t.args ++ nextLevel q := by simp [nextLevel]
    rw [tsize_cons, this, tsize_append, size_eq, List.length_cons]; omega

/-- Breadth-first listing with a queue, `n` tokens. -/
def bfs : Nat → List Expr → List String
  | 0, _ => []
  | _ + 1, [] => []
  | n + 1, t :: q => t.code :: bfs n (q ++ t.args)

theorem bfs_level (n : Nat) : ∀ q r : List Expr, bfs (q.length + n) (q ++ r) = q.map code ++ bfs n (r ++ nextLevel q)
  | [], r => by simp [nextLevel]
  | t :: q, r => by
    have h := bfs_level n q (r ++ t.args)
    have e : (t :: q).length + n = (q.length + n) + 1 := by simp; omega
    rw [e]
    simp only [List.cons_append, bfs, List.map_cons, List.append_assoc]
    rw [h]
    simp [nextLevel]

theorem levels_eq_bfs : ∀ (m : Nat) (q : List Expr), tsize q ≤ m → levels m q = bfs (tsize q) q
  | 0, q, h => by
    have : q = [] := by
      have := length_le_tsize q
      exact List.eq_nil_of_length_eq_zero (by omega)
    subst this; rfl
  | m + 1, q, h => by
    rw [levels, tsize_next q]
    have hb := bfs_level (tsize (nextLevel q)) q []
    rw [List.append_nil, List.nil_append] at hb
    rw [hb]
    by_cases hq : q = []
    · subst hq
      have : nextLevel [] = [] := rfl
      rw [this, levels_eq_bfs m [] (by simp [tsize])]
    · have : 0 < q.length := List.length_pos_iff.2 hq
      have := tsize_next q
      rw [levels_eq_bfs m (nextLevel q) (by omega)]

theorem bfs_length : ∀ (n : Nat) (q : List Expr), tsize q = n → (bfs n q).length = n
  | 0, q, _ => by simp [bfs]
  | n + 1, [], h => by simp [tsize] at h
  | n + 1, t :: q, h => by
    rw [tsize_cons, size_eq] at h
    simp only [bfs, List.length_cons]
    rw [bfs_length n (q ++ t.args) (by rw [tsize_append]; omega)]

theorem load_bfs (rest : List String) : ∀ (n : Nat) (q : List Expr), tsize q = n → q ≠ [] → (∀ t ∈ q, WF t) →
    load q.length (bfs n q ++ rest) = bfs n q
  | 0, q, h, hq, _ => by
    have := length_le_tsize q
    have : 0 < q.length := List.length_pos_iff.2 hq
    omega
  | n + 1, [], _, hq, _ => absurd rfl hq
  | n + 1, t :: q, h, _, hw => by
    obtain ⟨c, as, hl, hwa⟩ := hw t (by simp)
    rw [← arity_eq] at hl
    rw [tsize_cons, size_eq] at h
    simp only [bfs, List.cons_append, load, code, args]
    have e : (node c as :: q).length + arity c - 1 = (q ++ as).length := by
      simp; omega
    rw [e]
    simp only [args] at h
    by_cases h0 : (q ++ as).length = 0
    · rw [if_pos h0]
      have hnil := List.eq_nil_of_length_eq_zero h0
      have : n = 0 := by
        have : tsize (q ++ as) = 0 := by rw [hnil]; rfl
        rw [tsize_append] at this; omega
      subst this
      simp [bfs]
    · rw [if_neg h0, load_bfs rest n (q ++ as) (by rw [tsize_append]; omega) (fun e => h0 (by rw [e]; rfl)) ?_]
      intro a ha
      rcases List.mem_append.1 ha with ha | ha
      · exact hw a (by simp [ha])
      · exact hwa a ha

/-- The linked trees at position `i` are the expression. -/
inductive Rep (nodes : List String) (desc : List (List Nat)) : Nat → Expr → Prop
  | mk (i : Nat) (c : String) (as : List Expr) (ds : List Nat) : nodes[i]? = some c → desc[i]? = some ds →
      ds.length = as.length → (∀ l (h : l < ds.length) (h' : l < as.length), Rep nodes desc ds[l] as[l]) →
      Rep nodes desc i (node c as)

theorem rep_queue (nodes : List String) (desc : List (List Nat)) : ∀ (n : Nat) (q : List Expr) (i : Nat),
    tsize q = n → (∀ t ∈ q, WF t) → nodes.drop i = bfs n q → i + n = nodes.length →
    desc.drop i = link nodes.length (i + q.length - 1) (bfs n q) →
    ∀ l (h : l < q.length), Rep nodes desc (i + l) q[l]
  | 0, q, i, h, _, _, _, _ => by
    intro l hl
    have := length_le_tsize q
    omega
  | n + 1, [], i, _, _, _, _, _ => by intro l hl; simp at hl
  | n + 1, t :: q, i, h, hw, hn, hN, hd => by
    obtain ⟨c, as, hl, hwa⟩ := hw t (by simp)
    rw [← arity_eq] at hl
    rw [tsize_cons, size_eq] at h
    simp only [args] at h
    have hts : tsize (q ++ as) = n := by rw [tsize_append]; omega
    simp only [bfs, code, args] at hn hd
    simp only [link] at hd
    have hq : i + (node c as :: q).length - 1 = i + q.length := by simp
    rw [hq] at hd
    have hfil : (List.range' (i + q.length + 1) (arity c)).filter (fun x => decide (x < nodes.length)) =
        List.range' (i + q.length + 1) (arity c) := by
      rw [List.filter_eq_self]
      intro x hx
      rw [List.mem_range'_1] at hx
      have := length_le_tsize (q ++ as)
      rw [List.length_append] at this
      simp; omega
    rw [hfil] at hd
    have hn1 : nodes.drop (i + 1) = bfs n (q ++ as) := by
      rw [← List.drop_drop, hn]; rfl
    have hd1 : desc.drop (i + 1) = link nodes.length (i + 1 + (q ++ as).length - 1) (bfs n (q ++ as)) := by
      rw [← List.drop_drop, hd]
      simp only [List.drop_succ_cons, List.drop_zero]
      congr 1
      simp; omega
    have ih := rep_queue nodes desc n (q ++ as) (i + 1) hts (by
      intro a ha
      rcases List.mem_append.1 ha with ha | ha
      · exact hw a (by simp [ha])
      · exact hwa a ha) hn1 (by omega) hd1
    have h0 : nodes[i]? = some c := by
      have := congrArg (fun l => l[0]?) hn
      simpa using this
    have h1 : desc[i]? = some (List.range' (i + q.length + 1) (arity c)) := by
      have := congrArg (fun l => l[0]?) hd
      simpa using this
    intro l hlt
    match l, hlt with
    | 0, _ =>
      refine Rep.mk i c as _ h0 h1 (by simp [hl]) ?_
      intro l' h2 h3
      have := ih (q.length + l') (by simp; omega)
      simp only [List.getElem_range', Nat.one_mul]
      rw [List.getElem_append_right (by omega)] at this
      simp only [Nat.add_sub_cancel_left] at this
      rw [show i + q.length + 1 + l' = i + 1 + (q.length + l') by omega]
      exact this
    | l + 1, hlt =>
      simp only [List.length_cons] at hlt
      have := ih l (by simp; omega)
      rw [List.getElem_append_left (by omega)] at this
      rw [show i + (l + 1) = i + 1 + l by omega]
      simpa using this

theorem mapM_some_iff {α β : Type} (f : α → Option β) (l : List α) (r : List β) (hl : l.length = r.length)
    (h : ∀ i (h1 : i < l.length) (h2 : i < r.length), f l[i] = some r[i]) : l.mapM f = some r := by
  induction l generalizing r with
  | nil => cases r with
    | nil => rfl
    | cons b r => simp at hl
  | cons a l ih => cases r with
    | nil => simp at hl
    | cons b r =>
      have h0 := h 0 (by simp) (by simp)
      simp only [List.getElem_cons_zero] at h0
      have := ih r (by simpa using hl) (fun i h1 h2 => by
        have := h (i + 1) (by simp; omega) (by simp; omega)
        simpa using this)
      simp [List.mapM_cons, h0, this]

theorem arg_size {as : List Expr} {l : Nat} (h : l < as.length) : as[l].size ≤ tsize as := by
  induction as generalizing l with
  | nil => simp at h
  | cons a as ih =>
    rw [tsize_cons]
    match l, h with
    | 0, _ => simp
    | l + 1, h =>
      have := ih (l := l) (by simpa using h)
      simp only [List.getElem_cons_succ]; omega

theorem exec_rep {V : Type} (o : Ops V) (nodes : List String) (desc : List (List Nat)) :
    ∀ (fuel i : Nat) (t : Expr) (v : V), t.size ≤ fuel → Rep nodes desc i t → Value o t v →
      exec o nodes desc fuel i = some v
  | 0, _, t, _, h, _, _ => by have := t.size_pos; omega
  | fuel + 1, i, t, v, h, hr, hv => by
    obtain ⟨_, c, as, ds, h1, h2, h3, h4⟩ := hr
    obtain ⟨_, _, vs, _, g1, g2, g3⟩ := hv
    rw [size_eq] at h
    simp only [args] at h
    simp only [exec, h1, h2, bind, Option.bind_some]
    rw [mapM_some_iff (exec o nodes desc fuel) ds vs (by omega) ?_]
    · exact (execNode_iff o c vs v).2 g3
    · intro l hl1 hl2
      refine exec_rep o nodes desc fuel _ as[l] vs[l] ?_ (h4 l hl1 (by omega)) (g2 l (by omega) hl2)
      have := arg_size (as := as) (l := l) (by omega)
      omega

/-- **C36** Evaluating the tokens of an expression, listed level by level, gives the value of the
expression; tokens after the end of the expression are ignored. -/
theorem karva_value {V : Type} (o : Ops V) (t : Expr) (hw : t.WF) (v : V) (hv : Value o t v) (rest : List String) :
    run o (levels t.size [t] ++ rest) = some v := by
  have hs : tsize [t] = t.size := by simp [tsize]
  have hlv : levels t.size [t] = bfs t.size [t] := by
    rw [levels_eq_bfs t.size [t] (by omega), hs]
  have hload : load 1 (bfs t.size [t] ++ rest) = bfs t.size [t] := by
    have := load_bfs rest t.size [t] hs (by simp) (by simpa using hw)
    simpa using this
  have hlen := bfs_length t.size [t] hs
  unfold run
  simp only
  rw [hlv, hload]
  have hr := rep_queue (bfs t.size [t]) (link (bfs t.size [t]).length 0 (bfs t.size [t])) t.size [t] 0 hs
    (by simpa using hw) rfl (by omega) (by simp) 0 (by simp)
  exact exec_rep o _ _ _ _ t v (by omega) (by simpa using hr) hv

/-- **C36** Every well-formed expression whose numbers can be read has a value. -/
theorem wf_value {V : Type} (o : Ops V) (hp : ∀ c, operands c = 0 → ∃ v, o.parse c = some v) :
    ∀ (n : Nat) (t : Expr), t.size ≤ n → t.WF → ∃ v, Value o t v
  | 0, t, h, _ => by have := t.size_pos; omega
  | n + 1, t, h, hw => by
    obtain ⟨c, as, hl', hwa⟩ := hw
    have hl := hl'
    rw [← arity_eq] at hl
    rw [size_eq] at h
    simp only [args] at h
    have hex : ∀ l : Fin as.length, ∃ v, Value o as[l] v := by
      intro l
      have := arg_size (as := as) (l := l.1) l.2
      exact wf_value o hp n as[l.1] (by omega) (hwa _ (List.getElem_mem _))
    have hvs : ∃ vs : List V, as.length = vs.length ∧
        ∀ i (h : i < as.length) (h' : i < vs.length), Value o as[i] vs[i] := by
      refine ⟨List.ofFn fun l => Classical.choose (hex l), by simp, ?_⟩
      intro i h1 h2
      rw [List.getElem_ofFn]
      exact Classical.choose_spec (hex ⟨i, h1⟩)
    obtain ⟨vs, h1, h2⟩ := hvs
    have hex2 : ∃ v, execNode o c vs = some v := by
      rw [h1] at hl
      by_cases h0 : arity c = 0
      · have : vs = [] := List.eq_nil_of_length_eq_zero (by omega)
        subst this
        obtain ⟨v, hv⟩ := hp c (arity_eq c ▸ h0)
        exact ⟨v, by rw [execNode_nil, if_pos h0, hv]⟩
      · unfold arity at hl h0
        by_cases e1 : c = "+" ∨ c = "-" ∨ c = "*" ∨ c = "/" ∨ c = "%"
        · rw [if_pos e1] at hl
          match vs, hl with
          | [x, y], _ => rcases e1 with rfl | rfl | rfl | rfl | rfl <;> exact ⟨_, rfl⟩
        · rw [if_neg e1] at hl h0
          by_cases e2 : c = "sin" ∨ c = "cos" ∨ c = "log" ∨ c = "exp"
          · rw [if_pos e2] at hl
            match vs, hl with
            | [x], _ => rcases e2 with rfl | rfl | rfl | rfl <;> exact ⟨_, rfl⟩
          · rw [if_neg e2] at hl h0
            by_cases e3 : c = "?"
            · rw [if_pos e3] at hl
              match vs, hl with
              | [x, y, z], _ => subst e3; exact ⟨_, rfl⟩
            · rw [if_neg e3] at h0; exact absurd rfl h0
    obtain ⟨v, hv⟩ := hex2
    exact ⟨v, Value.mk c as vs v h1 h2 ((execNode_iff o c vs v).1 hv)⟩

theorem mapM_inv {α β : Type} (f : α → Option β) (l : List α) (r : List β) (h : l.mapM f = some r) :
    l.length = r.length ∧ ∀ i (h1 : i < l.length) (h2 : i < r.length), f l[i] = some r[i] := by
  induction l generalizing r with
  | nil => simp at h; subst h; simp
  | cons a l ih =>
    rw [List.mapM_cons] at h
    cases ha : f a with
    | none => simp [ha] at h
    | some b =>
      cases hl : l.mapM f with
      | none => simp [ha, hl] at h
      | some r' =>
        simp [ha, hl] at h
        subst h
        obtain ⟨e, h⟩ := ih r' hl
        refine ⟨by simp [e], ?_⟩
        intro i h1 h2
        match i with
        | 0 => simpa using ha
        | i + 1 => simpa using h i (by simpa using h1) (by simpa using h2)

theorem exec_value {V : Type} (o : Ops V) (nodes : List String) (desc : List (List Nat)) :
    ∀ (fuel i : Nat) (t : Expr) (v : V), Rep nodes desc i t → exec o nodes desc fuel i = some v → Value o t v
  | 0, _, t, _, _, h => by simp [exec] at h
  | fuel + 1, i, t, v, hr, h => by
    obtain ⟨_, c, as, ds, h1, h2, h3, h4⟩ := hr
    simp only [exec, h1, h2, bind, Option.bind_some] at h
    cases hm : ds.mapM (exec o nodes desc fuel) with
    | none => simp [hm] at h
    | some vs =>
      simp only [hm, Option.bind_some] at h
      obtain ⟨e, g⟩ := mapM_inv _ _ _ hm
      refine Value.mk c as vs v (by omega) ?_ ((execNode_iff o c vs v).1 h)
      intro l h5 h6
      exact exec_value o nodes desc fuel _ _ _ (h4 l (by omega) h5) (g l (by omega) h6)

/-- `sumOfA` reaches zero. -/
def Complete (m : Nat) : List String → Prop
  | [] => False
  | t :: ts => m + arity t - 1 = 0 ∨ Complete (m + arity t - 1) ts

theorem load_prefix (toks : List String) : ∀ m, ∃ rest, toks = load m toks ++ rest := by
  induction toks with
  | nil => intro m; exact ⟨[], rfl⟩
  | cons t ts ih =>
    intro m
    unfold load
    split
    · exact ⟨ts, rfl⟩
    · obtain ⟨r, hr⟩ := ih (m + arity t - 1)
      exact ⟨r, by rw [List.cons_append, ← hr]⟩

theorem complete_forest (toks : List String) : ∀ m, 0 < m → Complete m toks →
    ∃ q : List Expr, q.length = m ∧ (∀ t ∈ q, WF t) ∧ load m toks = bfs (tsize q) q := by
  induction toks with
  | nil => intro m _ h; exact h.elim
  | cons t ts ih =>
    intro m hm h
    by_cases h0 : m + arity t - 1 = 0
    · refine ⟨[node t []], by simp; omega, ?_, ?_⟩
      · intro x hx
        rw [List.mem_singleton] at hx; subst hx
        exact WF.mk t [] (by rw [← arity_eq]; simp; omega) (by simp)
      · rw [load, if_pos h0]
        simp [tsize, size_node, bfs, code]
    · have hc : Complete (m + arity t - 1) ts := h.resolve_left h0
      obtain ⟨q', hl, hw, hb⟩ := ih (m + arity t - 1) (by omega) hc
      refine ⟨node t (q'.drop (m - 1)) :: q'.take (m - 1), by simp; omega, ?_, ?_⟩
      · intro x hx
        rcases List.mem_cons.1 hx with rfl | hx
        · exact WF.mk t _ (by rw [← arity_eq]; simp; omega) (fun a ha => hw a (List.mem_of_mem_drop ha))
        · exact hw x (List.mem_of_mem_take hx)
      · rw [load, if_neg h0, hb]
        have hts : tsize (node t (q'.drop (m - 1)) :: q'.take (m - 1)) = tsize q' + 1 := by
          have : tsize q' = tsize (q'.take (m - 1)) + tsize (q'.drop (m - 1)) := by
            rw [← tsize_append, List.take_append_drop]
          rw [tsize_cons, size_eq]; simp only [args]; omega
        rw [hts]
        simp only [bfs, code, args, List.take_append_drop]

/-- Sum of the arities of the first `i` tokens. -/
def K (nodes : List String) (i : Nat) : Nat := ((nodes.take i).map arity).sum

theorem K_succ (nodes : List String) (i : Nat) (h : i < nodes.length) : K nodes (i + 1) = K nodes i + arity nodes[i] := by
  unfold K
  rw [List.take_succ_eq_append_getElem h, List.map_append, List.sum_append]; simp

theorem link_get (n : Nat) (nodes : List String) : ∀ (k i : Nat) (h : i < nodes.length),
    (link n k nodes)[i]? = some ((List.range' (k + K nodes i + 1) (arity nodes[i])).filter (· < n)) := by
  induction nodes with
  | nil => intro k i h; simp at h
  | cons t ts ih =>
    intro k i h
    match i, h with
    | 0, _ => simp [link, K]
    | i + 1, h =>
      have := ih (k + arity t) i (by simpa using h)
      simp only [link, List.getElem?_cons_succ, List.getElem_cons_succ, this]
      have : k + arity t + K ts i = k + K (t :: ts) (i + 1) := by simp [K]; omega
      rw [this]

theorem incomplete_sum (toks : List String) : ∀ m, 0 < m → ¬ Complete m toks → load m toks = toks ∧
    ∀ i, i ≤ toks.length → i < m + K toks i := by
  induction toks with
  | nil => intro m hm _; exact ⟨rfl, fun i hi => by simp at hi; subst hi; simp [K]; omega⟩
  | cons t ts ih =>
    intro m hm h
    have h0 : ¬ (m + arity t - 1 = 0) := fun e => h (Or.inl e)
    obtain ⟨h1, h2⟩ := ih (m + arity t - 1) (by omega) (fun e => h (Or.inr e))
    refine ⟨by rw [load, if_neg h0, h1], ?_⟩
    intro i hi
    match i, hi with
    | 0, _ => simp [K]; omega
    | i + 1, hi =>
      have := h2 i (by simpa using hi)
      have e : K (t :: ts) (i + 1) = arity t + K ts i := by simp [K]
      omega

theorem find_parent (f : Nat → Nat) (j : Nat) (h0 : f 0 = 0) (hj : 0 < j) (h : j ≤ f j) : ∃ i, i < j ∧ f i < j ∧ j ≤ f (i + 1) := by
  have : ∀ n, n ≤ j → j ≤ f n → ∃ i, i < j ∧ f i < j ∧ j ≤ f (i + 1) := by
    intro n
    induction n with
    | zero => intro _ h; omega
    | succ n ih =>
      intro hn h
      by_cases hc : j ≤ f n
      · exact ih (by omega) hc
      · exact ⟨n, by omega, by omega, h⟩
  exact this j (Nat.le_refl j) h

/-- **C36** Conversely, a list of tokens is evaluated only if it starts with the tokens of a well-formed
expression, and the result is the value of that expression.  So a list that ends before the expression
is complete is never given a value (an assertion fails). -/
theorem karva_only {V : Type} (o : Ops V) (toks : List String) (v : V) (h : run o toks = some v) :
    ∃ t rest, WF t ∧ toks = levels t.size [t] ++ rest ∧ Value o t v := by
  by_cases hc : Complete 1 toks
  · obtain ⟨q, hl, hw, hb⟩ := complete_forest toks 1 (by omega) hc
    match q, hl with
    | [t], _ =>
      have hs : tsize [t] = t.size := by simp [tsize]
      have hlv : levels t.size [t] = bfs t.size [t] := by
        rw [levels_eq_bfs t.size [t] (by omega), hs]
      obtain ⟨rest, hrest⟩ := load_prefix toks 1
      rw [hs] at hb
      refine ⟨t, rest, hw t (by simp), by rw [hlv, ← hb]; exact hrest, ?_⟩
      unfold run at h
      simp only [hb] at h
      have hlen := bfs_length t.size [t] hs
      have hr := rep_queue (bfs t.size [t]) (link (bfs t.size [t]).length 0 (bfs t.size [t])) t.size [t] 0 hs
        (by simpa using hw) rfl (by omega) (by simp) 0 (by simp)
      exact exec_value o _ _ _ _ t v (by simpa using hr) h
  · exfalso
    obtain ⟨hld, hK⟩ := incomplete_sum toks 1 (by omega) hc
    unfold run at h
    simp only [hld] at h
    have hnode : ∀ i (hi : i < toks.length) fuel w, exec o toks (link toks.length 0 toks) fuel i = some w →
        ∀ j, K toks i < j → j ≤ K toks (i + 1) → j < toks.length ∧
          ∃ fuel' w', exec o toks (link toks.length 0 toks) fuel' j = some w' := by
      intro i hi fuel w he
      match fuel, he with
      | fuel + 1, he =>
        rw [exec] at he
        simp only [List.getElem?_eq_getElem hi, link_get toks.length toks 0 i hi, bind, Option.bind_some,
          Nat.zero_add] at he
        cases hm : ((List.range' (K toks i + 1) (arity toks[i])).filter (· < toks.length)).mapM
            (exec o toks (link toks.length 0 toks) fuel) with
        | none => simp [hm] at he
        | some vs =>
          simp only [hm, Option.bind_some] at he
          obtain ⟨e, g⟩ := mapM_inv _ _ _ hm
          have har := execNode_arity o _ _ _ he
          have hfull : (List.range' (K toks i + 1) (arity toks[i])).filter (· < toks.length) =
              List.range' (K toks i + 1) (arity toks[i]) := by
            apply List.Sublist.eq_of_length List.filter_sublist
            simp only [List.length_range']; omega
          rw [K_succ toks i hi]
          intro j h1 h2
          have hmem : j ∈ (List.range' (K toks i + 1) (arity toks[i])).filter (· < toks.length) := by
            rw [hfull, List.mem_range'_1]; omega
          obtain ⟨l, hl, hlj⟩ := List.mem_iff_getElem.1 hmem
          exact ⟨by simpa using (List.mem_filter.1 hmem).2, fuel, _, by rw [← hlj]; exact g l hl (by omega)⟩
    have h0 : 0 < toks.length := by
      cases toks with
      | nil => simp [exec] at h
      | cons t ts => simp
    have hK0 : K toks 0 = 0 := by simp [K]
    have hall : ∀ j, j < toks.length → ∃ fuel' w', exec o toks (link toks.length 0 toks) fuel' j = some w' := by
      intro j
      induction j using Nat.strongRecOn with
      | ind j ih =>
        intro hj
        by_cases hj0 : j = 0
        · subst hj0; exact ⟨_, _, h⟩
        · obtain ⟨i, h1, h2, h3⟩ := find_parent (K toks) j hK0 (by omega) (by have := hK j (by omega); omega)
          obtain ⟨fuel, w, he⟩ := ih i h1 (by omega)
          exact (hnode i (by omega) fuel w he j h2 h3).2
    have hlt : ∀ i, i ≤ toks.length → K toks i < toks.length := by
      intro i
      induction i with
      | zero => intro _; omega
      | succ i ih =>
        intro hi
        have hk := K_succ toks i (by omega)
        by_cases ha : K toks (i + 1) = K toks i
        · rw [ha]; exact ih (by omega)
        · obtain ⟨fuel, w, he⟩ := hall i (by omega)
          exact (hnode i (by omega) fuel w he (K toks (i + 1)) (by omega) (Nat.le_refl _)).1
    have h1 := hlt toks.length (Nat.le_refl _)
    have h2 := hK toks.length (Nat.le_refl _)
    omega

/-- Integer arithmetic, for the examples. -/
def intOps : Ops Int where
  add := (· + ·)
  sub := (· - ·)
  mul := (· * ·)
  div := (· / ·)
  tiny := (· == 0)
  toNat := Int.natAbs
  ofNat := Int.ofNat
  sin := id
  cos := id
  log := id
  exp := id
  parse s := [("2", 2), ("4", 4), ("5", 5), ("7", 7)].lookup s

/-- `(5 - 2) * (7 + 4)`: level by level it is `* - + 5 2 7 4`, and evaluates to 33. -/
def sample : Expr := .node "*" [.node "-" [.node "5" [], .node "2" []], .node "+" [.node "7" [], .node "4" []]]

example : levels 7 [sample] = ["*", "-", "+", "5", "2", "7", "4"] ∧
    run intOps ["*", "-", "+", "5", "2", "7", "4", "junk"] = some 33 ∧ run intOps ["*", "-", "+", "5"] = none := by
  refine ⟨rfl, ?_, ?_⟩ <;> decide +kernel

example : sample.WF := by
  have leaf : ∀ c, operands c = 0 → (node c []).WF := fun c h => WF.mk c [] (by simp [h]) (by simp)
  have two : ∀ c a b, operands c = 2 → WF a → WF b → (node c [a, b]).WF := fun c a b h ha hb =>
    WF.mk c [a, b] (by simp [h]) (by simp [ha, hb])
  exact two _ _ _ rfl (two _ _ _ rfl (leaf _ rfl) (leaf _ rfl)) (two _ _ _ rfl (leaf _ rfl) (leaf _ rfl))

example := karva_only intOps ["*", "-", "+", "5", "2", "7", "4", "junk"] 33 (by decide +kernel)

end Verif.Ast
