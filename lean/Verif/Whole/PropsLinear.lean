import Verif.Whole.ModelLinear
import Verif.Extrap.PropsFit
import Verif.IoSimple.PropsCf
import Mathlib.Data.Nat.Fib.Basic
import Mathlib.Tactic.FinCases

/-!
# Properties of examples/linearPrediction.cpp
-/

namespace Verif.Whole.Linear

open Verif.IoSimple Verif.Extrap Verif.Lapack Verif.Loop

theorem back_append {y w : List ℝ} {i j : Nat} (hi : i ≤ y.length) : back (y ++ w) i j = back y i j := by
  unfold back
  split
  · rw [List.getElem?_append_left (by omega)]
  · rfl

theorem loopFrom_same {σ : Type} {a b : Nat} {f h : Nat → σ → Option σ} {s : σ} (e : ∀ i s, i < b → f i s = h i s) :
    loopFrom a b f s = loopFrom a b h s := by
  unfold loopFrom
  refine loopN_congr _ _ _ _ fun i s hi => e _ s (by omega)

/-- Making the coefficients again from the data of the file gives the same, whatever was predicted meanwhile. -/
theorem refit_same (g : Getr ℝ) (v : Gemv) (y w : List ℝ) (q : Nat) : refit g v (y ++ w) y q = fit g v y q := by
  unfold refit fit ctor
  by_cases h : y.length % 2 = 1
  · rw [if_pos h, if_pos h]; rfl
  rw [if_neg h, if_neg h]
  have eA : computeA (y ++ w) (y.length / 2) q = computeA y (y.length / 2) q := by
    unfold computeA elemA
    congr 1; funext l
    congr 1; funext j
    refine loopFrom_same fun i s hi => ?_
    rw [back_append (by omega), back_append (by omega)]
  have eB : computeB (y ++ w) (y.length / 2) q = computeB y (y.length / 2) q := by
    unfold computeB elemB
    congr 1; funext l
    refine loopFrom_same fun i s hi => ?_
    rw [back_append (by omega), List.getElem?_append_left (by omega)]
  rw [eA, eB]
  cases computeA y (y.length / 2) q <;> cases computeB y (y.length / 2) q <;> rfl

/-- `z` begins with the numbers `y` and goes on by the recurrence with coefficients `d`. -/
def Continues {q : Nat} (d : Fin q → ℝ) (n : Nat) (y z : Nat → ℝ) : Prop :=
  (∀ i < n, z i = y i) ∧ ∀ i, n ≤ i → z i = ∑ j : Fin q, d j * z (i - j - 1)

/-- The numbers that go on by a recurrence. -/
noncomputable def goOn {q : Nat} (d : Fin q → ℝ) (n : Nat) (hq : q ≤ n) (y : Nat → ℝ) (i : Nat) : ℝ :=
  if h : i < n then y i
  else ∑ j : Fin q, d j * goOn d n hq y (i - j - 1)
termination_by i
decreasing_by
  have := j.2
  omega

theorem goOn_continues {q : Nat} (d : Fin q → ℝ) (n : Nat) (hq : q ≤ n) (y : Nat → ℝ) : Continues d n y (goOn d n hq y) := by
  refine ⟨fun i hi => ?_, fun i hi => ?_⟩
  · rw [goOn, dif_pos hi]
  · rw [goOn, dif_neg (by omega)]

/-- There is only one way to go on. -/
theorem continues_unique {q : Nat} {d : Fin q → ℝ} {n : Nat} (hq : q ≤ n) {y z z' : Nat → ℝ} (h : Continues d n y z) (h' : Continues d n y z') :
    z = z' := by
  funext i
  induction i using Nat.strong_induction_on with
  | _ i ih =>
    by_cases hi : i < n
    · rw [h.1 i hi, h'.1 i hi]
    · rw [h.2 i (by omega), h'.2 i (by omega)]
      refine Finset.sum_congr rfl fun j _ => ?_
      have := j.2
      rw [ih _ (by omega)]

/-- Predicting keeps what there is and goes on. -/
theorem predict_goes {q : Nat} (d : Fin q → ℝ) (n : Nat) (hq : q ≤ n) (y z : Nat → ℝ) (h : Continues d n y z) (m : Nat) (hm : n ≤ m) (k : Nat) :
    predict (List.ofFn d) (List.ofFn fun i : Fin m => z i) k = some (List.ofFn fun i : Fin (m + k) => z i) := by
  obtain ⟨e, he⟩ : ∃ e : Nat → ℝ, e = fun j => if hj : j < q then d ⟨j, hj⟩ else 0 := ⟨_, rfl⟩
  have hd : ∀ j < (List.ofFn d).length, (List.ofFn d)[j]? = some (e j) := by
    intro j hj
    rw [List.length_ofFn] at hj
    rw [List.getElem?_ofFn, he]
    simp [hj]
  obtain ⟨w, e1, h1, h2, h3⟩ := predict_spec (List.ofFn d) (List.ofFn fun i : Fin m => z i) e hd (by simp; omega) k
  rw [List.length_ofFn] at h1 h2 h3
  rw [e1]
  obtain ⟨f, hf⟩ : ∃ f : Nat → ℝ, f = fun i => w.getD i 0 := ⟨_, rfl⟩
  have hw : ∀ i < w.length, w[i]? = some (f i) := by
    intro i hi
    rw [hf]
    simp [List.getD_eq_getElem?_getD, List.getElem?_eq_getElem hi]
  have hfz : ∀ i, i < m + k → f i = z i := by
    intro i
    induction i using Nat.strong_induction_on with
    | _ i ih =>
      intro hi
      by_cases hlt : i < m
      · have := h2 i hlt
        rw [hw i (by omega), List.getElem?_ofFn, dif_pos hlt] at this
        exact Option.some.inj this
      · rw [h3 f hw i (by omega) (by omega), h.2 i (by omega), pred, List.length_ofFn, Finset.sum_range]
        refine Finset.sum_congr rfl fun j _ => ?_
        have := j.2
        rw [ih _ (by omega) (by omega), he]
        simp
  congr 1
  apply List.ext_getElem?
  intro i
  by_cases hi : i < m + k
  · rw [hw i (by omega), hfz i hi, List.getElem?_ofFn, dif_pos hi]
  · rw [List.getElem?_eq_none (by omega), List.getElem?_eq_none (by simp; omega)]

theorem rounds_spec (g : Getr ℝ) (v : Gemv) {q n : Nat} (hq : q ≤ n) (d : Fin q → ℝ) (y z : Nat → ℝ) (h : Continues d n y z)
    (hf : fit g v (List.ofFn fun i : Fin n => y i) q = .ok (List.ofFn d)) (p m : Nat) (hm : n ≤ m) :
    rounds g v (List.ofFn fun i : Fin n => y i) q p (List.ofFn fun i : Fin m => z i) = .ok (List.ofFn fun i : Fin (m + p * q) => z i) := by
  induction p generalizing m with
  | zero => simp [rounds]
  | succ p ih =>
    unfold rounds
    obtain ⟨w, hw⟩ : ∃ w, (List.ofFn fun i : Fin m => z i) = (List.ofFn fun i : Fin n => y i) ++ w := by
      refine ⟨(List.ofFn fun i : Fin m => z i).drop n, ?_⟩
      have : (List.ofFn fun i : Fin n => y i) = (List.ofFn fun i : Fin m => z i).take n := by
        apply List.ext_getElem?
        intro i
        by_cases hi : i < n
        · rw [List.getElem?_take, if_pos hi, List.getElem?_ofFn, List.getElem?_ofFn, dif_pos hi, dif_pos (by omega)]
          simp [h.1 i hi]
        · rw [List.getElem?_eq_none (by simp; omega), List.getElem?_eq_none (by simp; omega)]
      rw [this, List.take_append_drop]
    have hr : refit g v (List.ofFn fun i : Fin m => z i) (List.ofFn fun i : Fin n => y i) q = .ok (List.ofFn d) := by
      rw [hw, refit_same, hf]
    rw [hr]
    simp only [bind, Except.bind]
    rw [predict_goes d n hq y z h m hm q]
    show rounds g v _ q p _ = _
    rw [ih (m + q) (by omega)]
    have e : m + q + p * q = m + (p + 1) * q := by ring
    rw [e]

/-- **C135** The numbers that are printed: those of the file, and then `p` more, each the combination of the `q` numbers before it with
coefficients that are the best ones, by least squares, for the second half of the file. -/
theorem numbers_spec {g : Getr ℝ} (hg : GetrDoc g) {v : Gemv} (hv : GemvDoc v) (y : Nat → ℝ) (n p q : Nat) (hq : q ≤ n) (h1 : 0 < q)
    (hA : IsUnit (normalA y n q)) :
    ∃ (d : Fin q → ℝ) (z : Nat → ℝ), Matrix.mulVec (normalA y n q) d = normalB y n q ∧ Continues d (2 * n) y z ∧
      numbers g v (List.ofFn fun i : Fin (2 * n) => y i) p q = .ok (List.ofFn fun i : Fin (p + 2 * n) => z i) := by
  obtain ⟨d, hf, hd⟩ := fit_spec hg hv (List.ofFn fun i : Fin (2 * n) => y i) y (by
    intro i hi
    rw [List.length_ofFn] at hi
    rw [List.getElem?_ofFn, dif_pos hi]) n q (by simp) hq h1 hA
  have hz := goOn_continues d (2 * n) (by omega) y
  refine ⟨d, goOn d (2 * n) (by omega) y, hd, hz, ?_⟩
  obtain ⟨z, ez⟩ : ∃ z, goOn d (2 * n) (by omega) y = z := ⟨_, rfl⟩
  rw [ez] at hz ⊢
  unfold numbers
  rw [hf]
  simp only [bind, Except.bind]
  have hy : (List.ofFn fun i : Fin (2 * n) => y i) = List.ofFn fun i : Fin (2 * n) => z i := by
    congr 1; funext i; exact (hz.1 i i.2).symm
  have e1 : predict (List.ofFn d) (List.ofFn fun i : Fin (2 * n) => y i) q = some (List.ofFn fun i : Fin (2 * n + q) => z i) := by
    rw [hy]
    exact predict_goes d (2 * n) (by omega) y z hz (2 * n) (Nat.le_refl _) q
  rw [e1]
  simp only [orUb]
  rw [rounds_spec g v (by omega) d y z hz hf p (2 * n + q) (by omega)]
  simp only [List.length_ofFn]
  have hle : p ≤ p * q := Nat.le_mul_of_pos_right _ h1
  rw [mapM_all (g := z) (List.range (p + 2 * n)) (by
    intro i hi
    have := List.mem_range.1 hi
    rw [List.getElem?_ofFn, dif_pos (by omega)])]
  simp only []
  congr 1
  rw [List.ofFn_eq_map, ← List.map_coe_finRange_eq_range, List.map_map]
  rfl

/-- The lines of the output. -/
def found (pr : ℝ → Str) (n : Nat) (file : Str) (l : List ℝ) : Str :=
  "#Found ".toList ++ Nat.toDigits 10 n ++ " points in file ".toList ++ file ++ ['\n'] ++ l.flatMap fun x => pr x ++ ['\n']

/-- **C135** The program prints the numbers of the vector with that label and goes on by the best recurrence, for every file that
`IoSimple` wrote in which no word before the vector begins like the label. -/
theorem linear_prints {N : Type} {prN : N → Str} {rd : Stream → Stream × N} (hr : Reads prN rd) (val : N → ℝ) (pr : ℝ → Str)
    {g : Getr ℝ} (hg : GetrDoc g) {v : Gemv} (hv : GemvDoc v) (disk : Str → Option Str) (file label text : Str) (a b : List (Item N))
    (hfile : file ≠ []) (hlabel : ∀ c ∈ label, isWs c = false) (hl : label ≠ []) (hfirst : hits label (wordsOf prN a) = [])
    (xs : List N) (y : Nat → ℝ) (n : Nat) (hn : xs.length = 2 * n) (hlen : xs.length ≤ 2147483647)
    (hy : ∀ i < 2 * n, (xs[i]?).map val = some (y i)) (hw : writeAll prN 0 [] (a ++ .vector label xs :: b) = .ok text)
    (hd : disk file = some text) (p q : Nat) (hp : 0 < p) (h2 : 2 ≤ q) (hq : q ≤ n) (hA : IsUnit (normalA y n q)) :
    ∃ (d : Fin q → ℝ) (z : Nat → ℝ), Matrix.mulVec (normalA y n q) d = normalB y n q ∧ Continues d (2 * n) y z ∧
      program rd val pr g v disk file label p q = .ok (some (found pr (2 * n) file (List.ofFn fun i : Fin (p + 2 * n) => z i))) := by
  obtain ⟨d, z, e1, e2, e3⟩ := numbers_spec hg hv y n p q hq (by omega) hA
  refine ⟨d, z, e1, e2, ?_⟩
  obtain ⟨text', st', w1, w2⟩ := vector_roundtrip hr a b label hlabel hl xs (by
    rintro rfl
    simp at hn
    omega) hlen []
  rw [hw] at w1
  cases w1
  rw [hfirst] at w2
  have hxs : xs.map val = List.ofFn fun i : Fin (2 * n) => y i := by
    apply List.ext_getElem?
    intro i
    rw [List.getElem?_map]
    by_cases hi : i < 2 * n
    · rw [hy i hi, List.getElem?_ofFn, dif_pos hi]
    · rw [List.getElem?_eq_none (by omega), List.getElem?_eq_none (by simp; omega)]
      rfl
  unfold program
  rw [if_neg (by unfold refused; simp [hfile, hl]; omega), hd]
  simp only [List.length_nil, Nat.cast_zero] at w2
  simp only [w2, bind, Except.bind, hxs, e3, hn]
  rfl

/-- **C135** If the numbers of the file and those that should follow obey a recurrence with `q` coefficients, the program prints
exactly the numbers that should follow. -/
theorem linear_exact {N : Type} {prN : N → Str} {rd : Stream → Stream × N} (hr : Reads prN rd) (val : N → ℝ) (pr : ℝ → Str)
    {g : Getr ℝ} (hg : GetrDoc g) {v : Gemv} (hv : GemvDoc v) (disk : Str → Option Str) (file label text : Str) (a b : List (Item N))
    (hfile : file ≠ []) (hlabel : ∀ c ∈ label, isWs c = false) (hl : label ≠ []) (hfirst : hits label (wordsOf prN a) = [])
    (xs : List N) (y : Nat → ℝ) (n : Nat) (hn : xs.length = 2 * n) (hlen : xs.length ≤ 2147483647)
    (hy : ∀ i < 2 * n, (xs[i]?).map val = some (y i)) (hw : writeAll prN 0 [] (a ++ .vector label xs :: b) = .ok text)
    (hd : disk file = some text) (p q : Nat) (hp : 0 < p) (h2 : 2 ≤ q) (hq : q ≤ n) (hA : IsUnit (normalA y n q))
    (c : Fin q → ℝ) (hc : ∀ i, n ≤ i → y i = ∑ j : Fin q, c j * y (i - j - 1)) :
    program rd val pr g v disk file label p q = .ok (some (found pr (2 * n) file (List.ofFn fun i : Fin (p + 2 * n) => y i))) := by
  obtain ⟨d, z, e1, e2, e3⟩ := linear_prints hr val pr hg hv disk file label text a b hfile hlabel hl hfirst xs y n hn hlen hy hw hd p q hp h2 hq hA
  have hdc : d = c := normal_exact y n q c d (fun i h1 h2 => hc i h1) ((Matrix.isUnit_iff_isUnit_det _).1 hA) e1
  subst hdc
  have : z = y := continues_unique (by omega) e2 ⟨fun _ _ => rfl, fun i hi => hc i (by omega)⟩
  rw [e3, this]

/-- **C135** Options without a file, without a label, without points to predict or with fewer than two coefficients are refused. -/
theorem linear_usage {N : Type} (rd : Stream → Stream × N) (val : N → ℝ) (pr : ℝ → Str) (g : Getr ℝ) (v : Gemv) (disk : Str → Option Str)
    (file label : Str) (p q : Nat) : program rd val pr g v disk file label p q = .ok none ↔ file = [] ∨ label = [] ∨ p = 0 ∨ q < 2 := by
  constructor
  · intro h
    by_contra hc
    unfold program at h
    rw [if_neg (show ¬ refused file label p q from hc)] at h
    cases hd : disk file with
    | none => rw [hd] at h; cases h
    | some text =>
      rw [hd] at h
      simp only [bind, Except.bind] at h
      split at h
      · cases h
      · split at h
        · cases h
        · cases h
  · intro h
    unfold program
    rw [if_pos (show refused file label p q from h)]

/-- **C135** A file that cannot be opened is an exception. -/
theorem linear_nofile {N : Type} (rd : Stream → Stream × N) (val : N → ℝ) (pr : ℝ → Str) (g : Getr ℝ) (v : Gemv) (disk : Str → Option Str)
    (file label : Str) (p q : Nat) (hfile : file ≠ []) (hl : label ≠ []) (hp : 0 < p) (h2 : 2 ≤ q) (hd : disk file = none) :
    program rd val pr g v disk file label p q = throwOut := by
  unfold program
  rw [if_neg (by unfold refused; simp [hfile, hl]; omega), hd]

theorem at_vector {N : Type} {prN : N → Str} {rd : Stream → Stream × N} (hr : Reads prN rd) (val : N → ℝ) (pr : ℝ → Str)
    (g : Getr ℝ) (v : Gemv) (disk : Str → Option Str) (file label text : Str) (a b : List (Item N))
    (hfile : file ≠ []) (hlabel : ∀ c ∈ label, isWs c = false) (hl : label ≠ []) (hfirst : hits label (wordsOf prN a) = [])
    (xs : List N) (hx : xs ≠ []) (hlen : xs.length ≤ 2147483647) (hw : writeAll prN 0 [] (a ++ .vector label xs :: b) = .ok text)
    (hd : disk file = some text) (p q : Nat) (hp : 0 < p) (h2 : 2 ≤ q) (e : Bad) (he : numbers g v (xs.map val) p q = .error e) :
    program rd val pr g v disk file label p q = .error e := by
  obtain ⟨text', st', w1, w2⟩ := vector_roundtrip hr a b label hlabel hl xs hx hlen []
  rw [hw] at w1
  cases w1
  rw [hfirst] at w2
  unfold program
  rw [if_neg (by unfold refused; simp [hfile, hl]; omega), hd]
  simp only [List.length_nil, Nat.cast_zero] at w2
  simp only [w2, bind, Except.bind, he]

/-- **C135** An odd number of points is an exception. -/
theorem linear_odd {N : Type} {prN : N → Str} {rd : Stream → Stream × N} (hr : Reads prN rd) (val : N → ℝ) (pr : ℝ → Str)
    (g : Getr ℝ) (v : Gemv) (disk : Str → Option Str) (file label text : Str) (a b : List (Item N))
    (hfile : file ≠ []) (hlabel : ∀ c ∈ label, isWs c = false) (hl : label ≠ []) (hfirst : hits label (wordsOf prN a) = [])
    (xs : List N) (hodd : xs.length % 2 = 1) (hlen : xs.length ≤ 2147483647) (hw : writeAll prN 0 [] (a ++ .vector label xs :: b) = .ok text)
    (hd : disk file = some text) (p q : Nat) (hp : 0 < p) (h2 : 2 ≤ q) : program rd val pr g v disk file label p q = throwOut := by
  refine at_vector hr val pr g v disk file label text a b hfile hlabel hl hfirst xs (by rintro rfl; simp at hodd) hlen hw hd p q hp h2 .thrown ?_
  unfold numbers fit
  rw [ctor_odd _ _ (by simpa using hodd)]
  rfl

/-- **C135, violated part** More coefficients than half of the points are not refused: numbers before the first are used. -/
theorem linear_many_fails {N : Type} {prN : N → Str} {rd : Stream → Stream × N} (hr : Reads prN rd) (val : N → ℝ) (pr : ℝ → Str)
    (g : Getr ℝ) (v : Gemv) (disk : Str → Option Str) (file label text : Str) (a b : List (Item N))
    (hfile : file ≠ []) (hlabel : ∀ c ∈ label, isWs c = false) (hl : label ≠ []) (hfirst : hits label (wordsOf prN a) = [])
    (xs : List N) (n : Nat) (h0 : 0 < n) (hn : xs.length = 2 * n) (hlen : xs.length ≤ 2147483647)
    (hw : writeAll prN 0 [] (a ++ .vector label xs :: b) = .ok text)
    (hd : disk file = some text) (p q : Nat) (hp : 0 < p) (h2 : 2 ≤ q) (hq : n < q) : program rd val pr g v disk file label p q = ubOut := by
  refine at_vector hr val pr g v disk file label text a b hfile hlabel hl hfirst xs (by rintro rfl; simp at hn; omega) hlen hw hd p q hp h2 .ub ?_
  unfold numbers fit
  rw [ctor_many_fails _ n q (by simpa using hn) h0 hq]
  rfl

/-- The hypotheses are met: from the numbers 1, 1, 2, 3 of a file the program goes on with those of Fibonacci, as many as asked for. -/
example (pr : ℝ → Str) {g : Getr ℝ} (hg : GetrDoc g) {v : Gemv} (hv : GemvDoc v) (p : Nat) (hp : 0 < p) :
    program smallFmt.rd (fun n : Small => (n.1 : ℝ)) pr g v (fun _ => some "series\n4\n1\n1\n2\n3\n\n".toList) "in.txt".toList "series".toList p 2 =
      .ok (some (found pr 4 "in.txt".toList (List.ofFn fun i : Fin (p + 4) => (Nat.fib (i + 1) : ℝ)))) := by
  refine linear_exact smallFmt_lawful.reads _ pr hg hv _ "in.txt".toList "series".toList "series\n4\n1\n1\n2\n3\n\n".toList [] [] (by decide) (by decide) (by decide) (by decide)
    [sm 1, sm 1, sm 2, sm 3] (fun i => (Nat.fib (i + 1) : ℝ)) 2 rfl (by decide) ?_ (by rfl) rfl p 2 hp (by decide) (by decide) ?_ ![1, 1] ?_
  · intro i hi
    interval_cases i <;> simp [sm, show Nat.fib 3 = 2 from rfl, show Nat.fib 4 = 3 from rfl]
  · rw [Matrix.isUnit_iff_isUnit_det, Matrix.det_fin_two]
    simp [normalA, Finset.sum_Ico_succ_top, show Nat.fib 3 = 2 from rfl]
    norm_num
  · intro i hi
    obtain ⟨k, rfl⟩ : ∃ k, i = k + 2 := ⟨i - 2, by omega⟩
    simp [Nat.fib_add_two (n := k + 1)]
    ring

end Verif.Whole.Linear
