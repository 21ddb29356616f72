import Verif.Host.ModelRunId
import Verif.BitManip.Props
import Verif.Random.PropsMT
import Verif.IoSimple.Props
import Mathlib.Tactic.Ring

/-! # C87: identifiers of runs -/

namespace Verif.Host

open Verif.Str Verif.Random Verif.BitManip

/-- Two decimal digits. -/
def twoDigits (c : Nat) : Str := [Nat.digitChar (c / 10), Nat.digitChar (c % 10)]

/-- The identifier with number `y`: its digits and the number of its ones, with two digits. -/
def idOf (y : BitVec 64) : Str := Nat.toDigits 10 y.toNat ++ twoDigits (popcount y)

theorem space_digit {c : Char} (h : isDigit c = true) : isSpace c = false ∧ c ≠ '-' ∧ c ≠ '+' := by
  rw [StrUtil.isDigit_iff] at h
  simp only [List.mem_cons, List.not_mem_nil, or_false] at h
  rcases h with h | h | h | h | h | h | h | h | h | h <;> subst h <;> decide

theorem leading_digits (w : Str) (h : ∀ c ∈ w, isDigit c = true) : leading w = (Nat.ofDigitChars 10 w 0 : Nat) := by
  unfold leading
  rcases w with _ | ⟨d, w⟩
  · rfl
  · obtain ⟨h1, h2, h3⟩ := space_digit (h d List.mem_cons_self)
    rw [List.dropWhile_cons, if_neg (by simp [h1])]
    have ht : (d :: w).takeWhile isDigit = d :: w := by
      have := List.takeWhile_append_of_pos (l₂ := []) h
      simpa using this
    simp only
    split
    · rename_i t e
      exact absurd (List.cons.inj e).1 h2
    · rename_i t e
      exact absurd (List.cons.inj e).1 h3
    · rw [ht]

theorem isDigit_digits (n : Nat) : ∀ c ∈ Nat.toDigits 10 n, isDigit c = true := StrUtil.isDigit_toDigits n

theorem leading_nat (n : Nat) : leading (Nat.toDigits 10 n) = n := by
  rw [leading_digits _ (isDigit_digits n), IoSimple.ofDigitChars_toDigits]

theorem atol_nat (n : Nat) (h : n < 2 ^ 63) : atol (Nat.toDigits 10 n) = some (n : Int) := by
  unfold atol
  rw [leading_nat, if_pos (by omega)]

theorem ofDigits_init (w : Str) : ∀ init : Nat, Nat.ofDigitChars 10 w init = init * 10 ^ w.length + Nat.ofDigitChars 10 w 0 := by
  induction w with
  | nil => intro init; simp [Nat.ofDigitChars]
  | cons c w ih =>
    intro init
    simp only [Nat.ofDigitChars, List.foldl_cons] at ih ⊢
    rw [ih, ih (10 * 0 + _), List.length_cons]
    ring

/-- Two numbers written after each other. -/
theorem ofDigits_append (a b : Nat) : Nat.ofDigitChars 10 (Nat.toDigits 10 a ++ Nat.toDigits 10 b) 0 =
    a * 10 ^ (Nat.toDigits 10 b).length + b := by
  have happ : Nat.ofDigitChars 10 (Nat.toDigits 10 a ++ Nat.toDigits 10 b) 0 =
      Nat.ofDigitChars 10 (Nat.toDigits 10 b) (Nat.ofDigitChars 10 (Nat.toDigits 10 a) 0) := by
    unfold Nat.ofDigitChars
    rw [List.foldl_append]
  rw [happ, IoSimple.ofDigitChars_toDigits, ofDigits_init, IoSimple.ofDigitChars_toDigits]

theorem atol_append (a b : Nat) : atol (Nat.toDigits 10 a ++ Nat.toDigits 10 b) =
    if a * 10 ^ (Nat.toDigits 10 b).length + b < 2 ^ 63 then some ((a * 10 ^ (Nat.toDigits 10 b).length + b : Nat) : Int) else none := by
  unfold atol
  rw [leading_digits _ (by
    intro c hc
    rcases List.mem_append.1 hc with h | h
    · exact isDigit_digits a c h
    · exact isDigit_digits b c h), ofDigits_append]
  generalize a * 10 ^ (Nat.toDigits 10 b).length + b = n
  split_ifs <;> first | rfl | omega

theorem popcount_le {n : Nat} (b : BitVec n) : popcount b ≤ n := by
  unfold popcount
  exact Nat.le_trans List.countP_le_length (by simp)

theorem two_digits_text (c : Nat) (h : c < 100) : (if c < 10 then ['0'] else []) ++ Nat.toDigits 10 c = twoDigits c := by
  have : ∀ c : Fin 100, (if c.val < 10 then ['0'] else []) ++ Nat.toDigits 10 c.val = twoDigits c.val := by decide +kernel
  exact this ⟨c, h⟩

theorem atoi_two (c : Nat) (h : c < 100) : atoi (twoDigits c) = some (c : Int) := by
  have : ∀ c : Fin 100, atoi (twoDigits c.val) = some (c.val : Int) := by decide +kernel
  exact this ⟨c, h⟩

/-- **C87** What the check says of a number followed by two digits: whether they are the number of its ones. -/
theorem check_iff (n c : Nat) (hn : n < 2 ^ 63) (hc : c < 100) :
    checkRunId (Nat.toDigits 10 n ++ twoDigits c) = some (decide (popcount (BitVec.ofNat 64 n) = c)) := by
  have hl := Labels.toDigits_pos n
  have h2 : (twoDigits c).length = 2 := rfl
  unfold checkRunId
  rw [if_neg (by rw [List.length_append, h2]; omega), List.length_append, h2,
    show (Nat.toDigits 10 n).length + 2 - 2 = (Nat.toDigits 10 n).length by omega,
    show (Nat.toDigits 10 n).length + 2 - 1 = (Nat.toDigits 10 n).length + 1 by omega,
    List.take_left, List.getElem?_append_right (Nat.le_refl _), List.getElem?_append_right (Nat.le_succ _),
    Nat.sub_self, show (Nat.toDigits 10 n).length.succ - (Nat.toDigits 10 n).length = 1 by omega]
  have e0 : (twoDigits c)[0]? = some (Nat.digitChar (c / 10)) := rfl
  have e1 : (twoDigits c)[1]? = some (Nat.digitChar (c % 10)) := rfl
  have ht : [Nat.digitChar (c / 10), Nat.digitChar (c % 10)] = twoDigits c := rfl
  simp only [e0, e1, bind, Option.bind_some]
  rw [atol_nat n hn, Option.bind_some, ht, atoi_two c hc, Option.bind_some, countKernighan_correct]
  have : BitVec.ofInt 64 (n : Int) = BitVec.ofNat 64 n := by simp
  rw [this]
  simp

theorem count_update (p q : Nat → Bool) (k : Nat) (h : ∀ i, i ≠ k → p i = q i) (hk : p k = !q k) (n : Nat) :
    if n ≤ k then (List.range n).countP p = (List.range n).countP q
    else (List.range n).countP p = (List.range n).countP q + 1 ∨ (List.range n).countP p + 1 = (List.range n).countP q := by
  induction n with
  | zero => simp
  | succ n ih =>
    rw [List.range_succ, List.countP_append, List.countP_append, List.countP_singleton, List.countP_singleton]
    by_cases hn : n < k
    · rw [if_pos (by omega)] at ih ⊢
      rw [ih, h n (by omega)]
    · by_cases he : n = k
      · subst he
        rw [if_pos (Nat.le_refl _)] at ih
        rw [if_neg (by omega), ih, hk]
        cases q n <;> simp
      · rw [if_neg (by omega)] at ih ⊢
        rw [h n he]
        omega

/-- **C87** If one bit of the number of an identifier is changed the check refuses it. -/
theorem check_bit (y k : Nat) (hy : y < 2 ^ 63) (hk : k < 63) :
    checkRunId (Nat.toDigits 10 (y ^^^ 2 ^ k) ++ twoDigits (popcount (BitVec.ofNat 64 y))) = some false := by
  have hy' : y ^^^ 2 ^ k < 2 ^ 63 := Nat.xor_lt_two_pow hy (Nat.pow_lt_pow_right (by omega) hk)
  rw [check_iff _ _ hy' (Nat.lt_of_le_of_lt (popcount_le _) (by omega))]
  congr 1
  rw [decide_eq_false_iff_not]
  have := count_update (fun i => (BitVec.ofNat 64 (y ^^^ 2 ^ k)).getLsbD i) (fun i => (BitVec.ofNat 64 y).getLsbD i) k
    (by
      intro i hi
      simp only [BitVec.getLsbD_ofNat, Nat.testBit_xor, Nat.testBit_two_pow]
      have : ¬ k = i := fun e => hi e.symm
      simp [this])
    (by
      simp only [BitVec.getLsbD_ofNat, Nat.testBit_xor, Nat.testBit_two_pow]
      have : k < 64 := by omega
      simp [this]) 64
  rw [if_neg (by omega)] at this
  unfold popcount
  omega

/-- **C87** The identifier of a run is made of the two words of the generator and the numbers of the process and of the clock; it
passes the check.  It exists if, and only if, the two numbers written after each other fit in a `long`; otherwise the conversion is
undefined. -/
theorem run_id_spec (old : List (BitVec 32)) (hold : old.length = 624) (p : BitVec 32) (tt : BitVec 64) (x : Nat → BitVec 32)
    (hs : Seeded (tt.truncate 32 + p) x) (hx : Stream x) (a b : Nat) (ha : a = (tt.truncate 32 ^^^ temper (x 624)).toNat)
    (hb : b = (p ^^^ temper (x 625)).toNat) :
    (2 ^ 63 ≤ a * 10 ^ (Nat.toDigits 10 b).length + b → runIdInternal old p tt = none) ∧
    (a * 10 ^ (Nat.toDigits 10 b).length + b < 2 ^ 63 →
      runIdInternal old p tt = some (idOf (BitVec.ofNat 64 (a * 10 ^ (Nat.toDigits 10 b).length + b) ^^^ (temper (x 626)).zeroExtend 64)) ∧
      checkRunId (idOf (BitVec.ofNat 64 (a * 10 ^ (Nat.toDigits 10 b).length + b) ^^^ (temper (x 626)).zeroExtend 64)) = some true) := by
  obtain ⟨g, g', h1, h2⟩ := mt_stream old hold _ x hs hx 3
  have h3 : (List.range 3).map (fun i => temper (x (624 + i))) = [temper (x 624), temper (x 625), temper (x 626)] := rfl
  rw [h3] at h2
  -- the three calls one by one
  have h4 : ∃ g1 g2, random g = some (temper (x 624), g1) ∧ random g1 = some (temper (x 625), g2) ∧ random g2 = some (temper (x 626), g') := by
    rw [outputs] at h2
    rcases e1 : random g with _ | ⟨y1, g1⟩
    · rw [e1] at h2; simp at h2
    rw [e1] at h2
    simp only [bind, Option.bind_some, pure] at h2
    rw [outputs] at h2
    rcases e2 : random g1 with _ | ⟨y2, g2⟩
    · rw [e2] at h2; simp at h2
    rw [e2] at h2
    simp only [bind, Option.bind_some, pure] at h2
    rw [outputs] at h2
    rcases e3 : random g2 with _ | ⟨y3, g3⟩
    · rw [e3] at h2; simp at h2
    rw [e3] at h2
    simp only [bind, Option.bind_some, pure, outputs, Option.some.injEq, Prod.mk.injEq, List.cons.injEq, and_true] at h2
    obtain ⟨⟨rfl, rfl, rfl⟩, rfl⟩ := h2
    exact ⟨g1, g2, rfl, e2, e3⟩
  obtain ⟨g1, g2, e1, e2, e3⟩ := h4
  unfold runIdInternal
  rw [h1]
  simp only [bind, Option.bind_some, e1, e2]
  rw [← ha, ← hb, atol_append]
  constructor
  · intro h
    rw [if_neg (by omega)]
    rfl
  · intro h
    rw [if_pos h]
    simp only [Option.bind_some, e3]
    have hcast : ∀ n : Nat, BitVec.ofInt 64 (n : Int) = BitVec.ofNat 64 n := by simp
    rw [hcast, countKernighan_correct]
    generalize hyy : BitVec.ofNat 64 (a * 10 ^ (Nat.toDigits 10 b).length + b) ^^^ (temper (x 626)).zeroExtend 64 = y
    have hylt : y.toNat < 2 ^ 63 := by
      rw [← hyy, BitVec.toNat_xor]
      refine Nat.xor_lt_two_pow ?_ ?_
      · rw [BitVec.toNat_ofNat, Nat.mod_eq_of_lt (by omega)]
        exact h
      · have := (temper (x 626)).isLt
        simp only [BitVec.toNat_setWidth]
        omega
    have hp : popcount y < 100 := Nat.lt_of_le_of_lt (popcount_le _) (by omega)
    constructor
    · unfold idOf
      rw [← two_digits_text _ hp]
      split_ifs <;> simp
    · unfold idOf
      rw [check_iff _ _ hylt hp, BitVec.ofNat_toNat, BitVec.setWidth_eq]
      simp

/-- The first words of the generator with seed 11002. -/
def words : List Nat := [
  11002, 669927431, 164510861, 2763453648, 3742309998, 90178810, 2760833280, 183308685, 2231610569, 2612831140, 517325936,
  3554236295, 160144336, 4186489649, 4197599296, 818440794, 552252882, 1428503951, 3037458464, 3199541737, 2929778843, 2323104422,
  2206948706, 1027706611, 3451343447, 2171263489, 1890357873, 1951347671, 3383361658, 3598483758, 1834821015, 1658895721,
  3603992232, 1413972604, 729194427, 2825707670, 2084511896, 3667892470, 1034148519, 3848245574, 2575480065, 129631836, 1334593758,
  2897554162, 357563916, 925551997, 1872799607, 899445017, 3294085837, 1458791835, 1746228604, 320208496, 1936669364, 1708095570,
  1243275021, 4243189871, 3197088948, 3708766539, 1072468554, 4032953209, 4032214222, 1683867378, 3874475861, 4224099017,
  1340386546, 2455054724, 3547169768, 187941926, 913258450, 998666259, 211350557, 2984111988, 2819507190, 2312147217, 849288881,
  1228936556, 3589772029, 2475507607, 1361031055, 27830065, 3920961253, 816496563, 4030951161, 1749425761, 1896116484, 148890242,
  2762086200, 2206655797, 2952468587, 1402902154, 2559907161, 1533671118, 2889975543, 1384334682, 3257500413, 2771949745,
  2898562943, 4053569686, 1192910963, 2903322889, 2209474507, 3954391078, 381989335, 1185906806, 1766731515, 1927916815, 3259934808,
  3871640606, 3732914957, 1684140679, 2589290052, 4276521577, 3040440834, 184524693, 2007949763, 1518377961, 2666458188, 1313653743,
  2283732852, 1185664385, 348781272, 1449492469, 1388874086, 404117546, 3939225470, 3700152226, 3601718075, 4079853107, 4055616368,
  1659439940, 61875331, 1131991390, 3358738831, 401691061, 3134456903, 1573589116, 1079796729, 29601765, 313066187, 785471214,
  1555942690, 163927664, 4284170294, 168128852, 726987508, 1400455289, 3521839858, 1597376276, 4228478637, 123988079, 3712064505,
  3684916789, 2496832838, 921285937, 1493916695, 1793936085, 2098049840, 2118331974, 2833059161, 3313978786, 3876169893, 3881289731,
  342809066, 3633098401, 204971166, 636413551, 4269697097, 2560581653, 3135267419, 1553015242, 2112238889, 1533421375, 2316302674,
  2533426641, 3110705637, 746472238, 2738132118, 3095646521, 282371969, 4216729732, 2247556935, 2168833954, 454561774, 2716458521,
  625529919, 578600408, 724652442, 2346186889, 2240632835, 3933450486, 3382896287, 1922169319, 893696382, 2005021147, 95908748,
  4039649835, 3664067356, 708420852, 2189749346, 2439802723, 3303878957, 856876403, 1263958801, 3362000999, 1425897456, 2731561206,
  3426685834, 86908600, 4140447912, 2028997100, 195916891, 191289638, 4161849762, 741541518, 584216180, 161614743, 2963230411,
  1978014954, 2518363065, 1135533358, 4280188247, 401015381, 2839514655, 41698668, 2025482236, 3921423766, 1700594675, 3273385225,
  2576356582, 369109325, 1879765279, 3388549369, 2212853802, 1388960949, 1754266966, 464429578, 2648043790, 1840625725, 1357875090,
  2988207434, 532378648, 3587571085, 3625969792, 2193703310, 3562388608, 1988163672, 3950420779, 4101789499, 2844818160, 3216942775,
  398315275, 710953054, 951327362, 373215259, 2824724445, 2020771222, 827779219, 3444988772, 224765549, 2210791216, 3165977422,
  1621484789, 2874967458, 1109491427, 1007792466, 1877676263, 2984739760, 1938523025, 2957430156, 2059236903, 66509700, 3094655231,
  2477667361, 3802124676, 1055979357, 3574985776, 2061353987, 1066995987, 3443202861, 2086016057, 1955477648, 1688123922,
  3204836801, 3124628374, 1209348464, 307032070, 761489204, 4182873023, 3890050764, 2267005360, 311906724, 2289117059, 468211225,
  3826030966, 1441985063, 271135329, 2710873613, 2141909272, 3186388847, 2863776760, 3870170622, 3280323986, 3193741403, 2008384168,
  2233148829, 3677069328, 1449626937, 2331996983, 116661869, 2561420522, 1265516502, 1924278406, 1356509019, 3335214335, 1658186062,
  447701618, 2236379558, 2429205445, 3863429113, 3499310205, 3998484982, 396513870, 984811472, 1006813055, 2945673199, 550650554,
  1431884800, 1797762408, 4126909653, 1460150587, 1380598292, 2365256928, 268680742, 320082783, 3535256897, 3648047157, 805451742,
  2244195979, 4002987111, 1137362995, 1334065118, 2721277316, 542593228, 2153587407, 370806681, 972566906, 2246803876, 3758962789,
  3849231242, 149224638, 3508092172, 509640550, 2925970462, 4037463889, 3698109188, 2383069138, 68095364, 1565168365, 1577739866,
  1508884874, 2744186079, 1608949662, 1969904013, 3999601267, 2156237260, 454732103, 4258477673, 1076308381, 2194761660, 1647421067,
  945889900, 1235123707, 3250332774, 544381186, 4213778776, 3806742234, 3888439541, 3538140363, 544825866, 2596892793, 825763187,
  3364736176, 1386320469, 547372351, 3959814235, 2986324893, 4055375621, 2530027277, 1772924159, 605680815, 980647913, 2850488624,
  867147106, 3703731639, 2503686518, 3286875547, 3430853940, 4041070420, 1255939929]

theorem words_check : words.length = 399 ∧ (List.range 398).all (fun i =>
    (1812433253 * ((words.getD i 0 ^^^ (words.getD i 0 >>> 30)) + (i + 1))) % 4294967296 == words.getD (i + 1) 0) = true := by
  decide +kernel

theorem words_spec (x : Nat → BitVec 32) (hs : Seeded 11002#32 x) (i : Nat) (hi : i ≤ 398) : (x i).toNat = words.getD i 0 := by
  induction i with
  | zero => rw [hs.1]; rfl
  | succ i ih =>
    have h := List.all_eq_true.1 words_check.2 i (List.mem_range.2 (by omega))
    rw [beq_iff_eq] at h
    rw [← h, hs.2 i (by omega), ← ih (by omega)]
    simp only [BitVec.toNat_mul, BitVec.toNat_add, BitVec.toNat_xor, BitVec.toNat_ushiftRight, BitVec.toNat_ofNat]
    rw [Nat.mod_eq_of_lt (show i + 1 < 2 ^ 32 by omega), show 1812433253 % 2 ^ 32 = 1812433253 from rfl, Nat.mul_mod_mod]

/-- **C87** Finding: for some processes and times the number does not fit, and the conversion is undefined. -/
theorem run_id_overflow_fails (old : List (BitVec 32)) (hold : old.length = 624) : runIdInternal old 1002#32 10000#64 = none := by
  have hs := (stream_exists 11002#32).1
  have hx := (stream_exists 11002#32).2
  have w : ∀ i (v : Nat), i ≤ 398 → words.getD i 0 = v → stream 11002#32 i = BitVec.ofNat 32 v := by
    intro i v hi hv
    apply BitVec.eq_of_toNat_eq
    rw [words_spec _ hs i hi, hv, BitVec.toNat_ofNat, Nat.mod_eq_of_lt]
    rw [← hv, ← words_spec _ hs i hi]
    exact (stream 11002#32 i).isLt
  have e0 := hx 0
  have e1 := hx 1
  rw [show 0 + 624 = 624 from rfl, show 0 + 397 = 397 from rfl, w 397 _ (by omega) rfl, w 0 _ (by omega) rfl, w (0 + 1) _ (by omega) rfl] at e0
  rw [show 1 + 624 = 625 from rfl, show 1 + 397 = 398 from rfl, w 398 _ (by omega) rfl, w 1 _ (by omega) rfl, w (1 + 1) _ (by omega) rfl] at e1
  refine (run_id_spec old hold 1002#32 10000#64 (stream 11002#32) hs hx _ _ rfl rfl).1 ?_
  rw [e0, e1]
  decide +kernel

example : checkRunId "4317249342253485824".toList = some true := by
  have := check_iff 43172493422534858 24 (by omega) (by omega)
  have e : Nat.toDigits 10 43172493422534858 ++ twoDigits 24 = "4317249342253485824".toList := by decide +kernel
  have e2 : popcount (BitVec.ofNat 64 43172493422534858) = 24 := by decide +kernel
  rw [e, e2] at this
  exact this

theorem luint_digits (w : Str) (h : ∀ c ∈ w, isDigit c = true) :
    w.reverse.foldl luintStep (0, 1) = (Nat.ofDigitChars 10 w 0 % 2 ^ 64, 10 ^ w.length % 2 ^ 64) := by
  induction w with
  | nil => rfl
  | cons c w ih =>
    rw [List.reverse_cons, List.foldl_append, ih fun c hc => h c (List.mem_cons_of_mem _ hc), List.foldl_cons, List.foldl_nil]
    have hd : (((c.toNat : Int) - 48) % 4294967296).toNat = c.toNat - '0'.toNat := by
      have := (StrUtil.isDigit_iff c).1 (h c List.mem_cons_self)
      simp only [List.mem_cons, List.not_mem_nil, or_false] at this
      rcases this with h | h | h | h | h | h | h | h | h | h <;> subst h <;> decide
    have hv : Nat.ofDigitChars 10 (c :: w) 0 = (c.toNat - '0'.toNat) * 10 ^ w.length + Nat.ofDigitChars 10 w 0 := by
      have : Nat.ofDigitChars 10 (c :: w) 0 = Nat.ofDigitChars 10 w (10 * 0 + (c.toNat - '0'.toNat)) := rfl
      rw [this, ofDigits_init]
      ring
    unfold luintStep
    simp only [hd]
    rw [hv, List.length_cons, Nat.pow_succ (m := w.length), Prod.mk.injEq]
    constructor
    · rw [Nat.add_mod, Nat.mod_mod, Nat.mod_mul_mod, ← Nat.add_mod, Nat.add_comm, Nat.mul_comm]
    · rw [Nat.mod_mul_mod]

/-- **C87** `convertToLuint` gives back the number that was printed. -/
theorem luint_spec (n : Nat) (h : n < 10 ^ 19) : convertToLuint (Nat.toDigits 10 n) = some n := by
  unfold convertToLuint
  have hl : (Nat.toDigits 10 n).length < 20 := by
    have : (Nat.toDigits 10 n).length ≤ 19 := (Nat.length_toDigits_le_iff (by omega) (by omega)).2 h
    omega
  rw [if_pos hl, luint_digits _ (isDigit_digits n), IoSimple.ofDigitChars_toDigits]
  simp only
  rw [Nat.mod_eq_of_lt (by omega)]

example : convertToLuint "9007199254740993".toList = some 9007199254740993 := by decide +kernel

end Verif.Host
