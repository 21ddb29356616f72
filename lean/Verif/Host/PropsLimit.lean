import Verif.Host.ModelLimit
import Mathlib.Tactic.NormNum

/-!
# C150: limits of memory
-/

namespace Verif.Host

theorem toRlim_nat {x : Int} (h0 : 0 ≤ x) (h : x ≤ 2147483647) : (toRlim x : Int) = x := by
  unfold toRlim
  omega

/-- **C150** Limits that the process may set are set: the soft limit is `s`, the hard limit the larger one of `s` and `h`. -/
theorem limit_set (p : Limits) (s h : Int) (h0 : 0 ≤ s) (hs : s ≤ 2147483647) (hh : h ≤ 2147483647)
    (hp : p.mayRaise = true ∨ max s h ≤ p.hard) :
    ((getMemory (setMemory p s h)).1 : Int) = s ∧ ((getMemory (setMemory p s h)).2 : Int) = max s h ∧
      (setMemory p s h).mayRaise = p.mayRaise := by
  have e : (if h > s then h else s) = max s h := by split <;> omega
  have h1 := toRlim_nat h0 hs
  have h2 := toRlim_nat (x := max s h) (by omega) (by omega)
  have hset : setrlimit p (toRlim s) (toRlim (max s h)) = some { p with soft := toRlim s, hard := toRlim (max s h) } := by
    unfold setrlimit
    rw [if_neg (by omega), if_neg]
    rintro ⟨a, b⟩
    rcases hp with hp | hp
    · rw [hp] at b; cases b
    · omega
  simp only [setMemory, e, hset, getMemory]
  exact ⟨h1, h2, trivial⟩

/-- **C150, violated part** Limits that the process may not set are lost without an exception. -/
theorem limit_lost_fails (p : Limits) (s h : Int) (h0 : 0 ≤ s) (hs : s ≤ 2147483647) (hh : h ≤ 2147483647) (hp : p.mayRaise = false)
    (hl : (p.hard : Int) < max s h) : setMemory p s h = p := by
  have e : (if h > s then h else s) = max s h := by split <;> omega
  have h2 := toRlim_nat (x := max s h) (by omega) (by omega)
  have h1 := toRlim_nat h0 hs
  have hset : setrlimit p (toRlim s) (toRlim (max s h)) = none := by
    unfold setrlimit
    rw [if_neg (by omega), if_pos ⟨by omega, hp⟩]
  simp only [setMemory, e, hset]

/-- **C150, violated part** `memory(s)` with a negative number, such as the one that means no limit, changes nothing, whoever calls. -/
theorem limit_none_fails (p : Limits) (s : Int) (h0 : s < 0) (hs : -2147483648 ≤ s) : setMemory p s 0 = p := by
  have e : (if (0 : Int) > s then 0 else s) = 0 := if_pos h0
  have hset : setrlimit p (toRlim s) (toRlim 0) = none := by
    unfold setrlimit
    rw [if_pos]
    unfold toRlim
    omega
  simp only [setMemory, e, hset]

/-- **C150** Whatever a process that may not raise it calls, and in whatever order, the hard limit never rises, and the soft one
stays below it. -/
theorem limit_falls (p : Limits) (hp : p.mayRaise = false) (hsoft : p.soft ≤ p.hard) (calls : List (Int × Int)) :
    (calls.foldl (fun p c => setMemory p c.1 c.2) p).hard ≤ p.hard ∧
      (calls.foldl (fun p c => setMemory p c.1 c.2) p).soft ≤ (calls.foldl (fun p c => setMemory p c.1 c.2) p).hard ∧
      (calls.foldl (fun p c => setMemory p c.1 c.2) p).mayRaise = false := by
  induction calls generalizing p with
  | nil => exact ⟨Nat.le_refl _, hsoft, hp⟩
  | cons c calls ih =>
    rw [List.foldl_cons]
    have key : (setMemory p c.1 c.2).mayRaise = false ∧ (setMemory p c.1 c.2).hard ≤ p.hard ∧
        (setMemory p c.1 c.2).soft ≤ (setMemory p c.1 c.2).hard := by
      unfold setMemory setrlimit
      dsimp only
      generalize toRlim c.1 = cur
      generalize toRlim (if c.2 > c.1 then c.2 else c.1) = mx
      by_cases h1 : mx < cur
      · rw [if_pos h1]; exact ⟨hp, Nat.le_refl _, hsoft⟩
      · rw [if_neg h1]
        by_cases h2 : p.hard < mx ∧ p.mayRaise = false
        · rw [if_pos h2]; exact ⟨hp, Nat.le_refl _, hsoft⟩
        · rw [if_neg h2]
          have : ¬ p.hard < mx := fun h => h2 ⟨h, hp⟩
          exact ⟨hp, by show mx ≤ p.hard; omega, by show cur ≤ mx; omega⟩
    obtain ⟨i1, i2, i3⟩ := ih _ key.1 key.2.2
    exact ⟨Nat.le_trans i1 key.2.1, i2, i3⟩

/-- **C150, violated part** A limit cannot be raised again: after `memory(s)`, `memory(s')` with a larger number changes nothing. -/
theorem limit_again_fails (p : Limits) (hp : p.mayRaise = false) (s s' : Int) (h0 : 0 ≤ s) (h1 : s < s') (h2 : s' ≤ 2147483647)
    (hl : s ≤ p.hard) : (getMemory (setMemory (setMemory p s 0) s' 0)).1 = s ∧ (getMemory (setMemory p s 0)).1 = s := by
  obtain ⟨a1, a2, a3⟩ := limit_set p s 0 h0 (by omega) (by omega) (Or.inr (by omega))
  have := limit_lost_fails (setMemory p s 0) s' 0 (by omega) h2 (by omega) (a3.trans hp) (by
    have : ((setMemory p s 0).hard : Int) = max s 0 := a2
    omega)
  rw [this]
  exact ⟨a1, a1⟩

example : getMemory (setMemory ⟨2 ^ 64 - 1, 2 ^ 64 - 1, false⟩ 1000 2000) = (1000, 2000) := by decide

/-! ## Concrete cases of the hypotheses. -/

example := limit_set ⟨1000, 1000, false⟩ 500 900 (by decide) (by decide) (by decide) (.inr (by decide))
example := limit_lost_fails ⟨1000, 1000, false⟩ 5000 0 (by decide) (by decide) (by decide) rfl (by decide)
example := limit_again_fails ⟨1000, 1000, false⟩ rfl 500 600 (by decide) (by decide) (by decide) (by decide)
example := limit_falls ⟨1000, 1000, false⟩ rfl (by decide) [(500, 0), (600, 700)]
example := limit_none_fails ⟨1000, 1000, false⟩ (-1) (by decide) (by decide)

end Verif.Host
