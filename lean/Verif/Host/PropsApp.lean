import Verif.Host.ModelApp
import Verif.Base64.Props
import Verif.StrUtil.Props
import Verif.InputNg.PropsValues
import Verif.TextIo.Props

/-!
# **C96** What an application tells about itself, and **C98** texts of values
-/

namespace Verif.Host

open Verif.Str Verif.StrUtil

theorem cmdLoop_eq (args : List Str) (s : Str) : cmdLoop args s = s ++ args.flatMap fun a => a ++ [' '] := by
  induction args generalizing s with
  | nil => simp [cmdLoop]
  | cons a args ih => rw [cmdLoop, ih]; simp

/-- **C96** An application can be made exactly if it agrees with the library about the size of `SizeType` (and the file with the
processor can be understood); its name is the last part of the path, and its command line has all arguments in order. -/
theorem app_make (appSize libSize : Nat) (cpuinfo : Option (List Str)) (v : Str) (hv : vendorId cpuinfo = some v) (appName : Str)
    (argv : List Str) :
    (appSize ≠ libSize → App.make appSize libSize cpuinfo appName argv = .error .thrown) ∧
    (appSize = libSize → ∃ a, App.make appSize libSize cpuinfo appName argv = .ok a ∧ a.appName = basename appName ∧ a.microArch = v ∧
      a.printCmdLine = "PsiApp: CmdLine: ".toList ++ (argv.flatMap fun x => x ++ [' ']) ++ ['\n']) := by
  unfold App.make
  rw [hv]
  constructor
  · intro h
    exact if_neg h
  · intro h
    refine ⟨_, if_pos h, rfl, rfl, ?_⟩
    unfold App.printCmdLine
    simp only [cmdLoop_eq, List.nil_append]

/-- **C96** Splitting the command line at blanks gives the arguments back, if none is empty or has blanks. -/
theorem app_cmdLine_split (appSize : Nat) (cpuinfo : Option (List Str)) (appName : Str) (argv : List Str) (a : App)
    (h : App.make appSize appSize cpuinfo appName argv = .ok a) (ha : ∀ x ∈ argv, x ≠ [] ∧ ' ' ∉ x) :
    split [] a.cmdLine [' '] = some argv := by
  unfold App.make at h
  split at h
  · cases h
  · rw [if_pos rfl] at h
    cases h
    simp only [cmdLoop_eq, List.nil_append]
    rw [split_spec, List.nil_append]
    congr 1
    induction argv with
    | nil => rfl
    | cons x argv ih =>
      have hx := ha x List.mem_cons_self
      rw [List.flatMap_cons, List.append_assoc, List.singleton_append,
        List.splitOnP_append_cons_of_forall_mem (p := fun c => decide (c ∈ [' '])) (by
          intro c hc
          have : c ≠ ' ' := fun e => hx.2 (e ▸ hc)
          simpa using this) ' ' (by decide), List.filter_cons_of_pos (by simpa using hx.1),
        ih fun y hy => ha y (List.mem_cons_of_mem _ hy)]

/-- Arguments with blanks cannot be told from several arguments. -/
theorem app_cmdLine_fails : cmdLoop ["a b".toList] [] = cmdLoop ["a".toList, "b".toList] [] := by decide

/-- **C96** Both architectures are printed, and the warning exactly if they differ. -/
theorem app_microArch (a : App) (compiled : Str) :
    ∃ warning, a.checkMicroArch compiled = "Compiled MicroArchitecture is ".toList ++ compiled ++
      "\nRunning on MicroArchitecture ".toList ++ a.microArch ++ ['\n'] ++ warning ∧
      (warning = [] ↔ compiled = a.microArch) ∧
      (compiled ≠ a.microArch → warning = "WARNING: Compiled MicroArchitecture is DIFFERENT than Running one\n".toList) := by
  have e : "\nRunning on MicroArchitecture ".toList = ['\n'] ++ "Running on MicroArchitecture ".toList := by decide +kernel
  have hw : "WARNING: Compiled MicroArchitecture is DIFFERENT than Running one\n".toList ≠ [] := by decide +kernel
  unfold App.checkMicroArch
  rw [e]
  generalize "WARNING: Compiled MicroArchitecture is DIFFERENT than Running one\n".toList = w at hw
  generalize "Compiled MicroArchitecture is ".toList = t1
  generalize "Running on MicroArchitecture ".toList = t2
  by_cases h : compiled = a.microArch
  · refine ⟨[], ?_, by simp [h], fun hne => absurd h hne⟩
    simp [h]
  · refine ⟨w, ?_, by simp [h, hw], fun _ => rfl⟩
    simp [h]

theorem alphabet_newline : '\n' ∉ Base64.alphabet := by decide +kernel

/-- **C96** The echo of a file is one line that decodes to its content, after a line with its name. -/
theorem echo_spec (disk : Str → Option (List UInt8)) (os f : Str) (content : List UInt8) (h : disk f = some content) :
    ∃ body, echoBase64 disk os f = some (os ++ ("PsiApp::echoBase64: Echo of ".toList ++ f ++ " in base64\n".toList) ++ body ++ ['\n']) ∧
      '\n' ∉ body ∧ Base64.decode body = content := by
  obtain ⟨body, h1, h2⟩ := Base64.base64_roundtrip content
  refine ⟨body, ?_, ?_, h2⟩
  · unfold echoBase64 base64encode
    rw [h, slurp, Option.getD_some, h1]
    simp
  · obtain ⟨b, pad, rfl, -, -, -, hb⟩ := Base64.base64_shape content body h1
    intro hm
    rcases List.mem_append.1 hm with hm | hm
    · exact alphabet_newline (hb _ hm)
    · exact absurd (List.eq_of_mem_replicate hm) (by decide)

/-- **C96** The same for data, with or without the line before it. -/
theorem base64encode_spec (os : Str) (data : List UInt8) (flag : Bool) :
    ∃ body, base64encode os data flag = some (os ++ (if flag then "PsiApp::echoBase64: Echo of [[data]] in base64\n".toList else []) ++
      body ++ ['\n']) ∧ '\n' ∉ body ∧ Base64.decode body = data := by
  obtain ⟨body, h1, h2⟩ := Base64.base64_roundtrip data
  refine ⟨body, ?_, ?_, h2⟩
  · unfold base64encode
    rw [h1]
    cases flag <;> simp
  · obtain ⟨b, pad, rfl, -, -, -, hb⟩ := Base64.base64_shape data body h1
    intro hm
    rcases List.mem_append.1 hm with hm | hm
    · exact alphabet_newline (hb _ hm)
    · exact absurd (List.eq_of_mem_replicate hm) (by decide)

/-- A file that cannot be opened is echoed like an empty one. -/
theorem echo_missing_fails (disk disk' : Str → Option (List UInt8)) (os f : Str) (h : disk f = none) (h' : disk' f = some []) :
    echoBase64 disk os f = echoBase64 disk' os f := by
  unfold echoBase64
  rw [h, h']
  rfl

example : ∃ a, App.make 8 8 none "/usr/bin/dmrg".toList ["dmrg".toList, "-f".toList] = .ok a ∧ a.appName = "dmrg".toList ∧
    a.cmdLine = "dmrg -f ".toList := ⟨_, rfl, by decide, by decide⟩

/-! ## Texts of values -/

/-- **C98** The text of a value is the first word that `<<` prints. -/
theorem ttos_word (ws w rest : Str) (h1 : ∀ c ∈ ws, isSpace c = true) (h2 : w ≠ []) (h3 : ∀ c ∈ w, isSpace c = false)
    (h4 : rest = [] ∨ ∃ c r, rest = c :: r ∧ isSpace c = true) : typeToString (ws ++ w ++ rest) = w := by
  unfold typeToString
  have e1 : (ws ++ w ++ rest).dropWhile isSpace = w ++ rest := by
    rw [List.append_assoc, List.dropWhile_append_of_pos h1]
    cases w with
    | nil => exact absurd rfl h2
    | cons c w => rw [List.cons_append, List.dropWhile_cons_of_neg (by simp [h3 c])]
  rw [e1, List.takeWhile_append_of_pos (by intro c hc; simp [h3 c hc])]
  rcases h4 with rfl | ⟨c, r, rfl, hc⟩
  · simp
  · rw [List.takeWhile_cons_of_neg (by simp [hc]), List.append_nil]

/-- **C98** So it is all that `<<` prints exactly if this has no white space. -/
theorem ttos_iff (text : Str) : typeToString text = text ↔ ∀ c ∈ text, isSpace c = false := by
  constructor
  · intro h c hc
    rw [← h] at hc
    have := List.all_eq_true.1 (List.all_takeWhile (p := fun c => !isSpace c) (l := text.dropWhile isSpace)) c hc
    simpa using this
  · intro h
    cases text with
    | nil => rfl
    | cons c t =>
      have := ttos_word [] (c :: t) [] (by simp) (by simp) h (.inl rfl)
      simpa using this

theorem digit_not_space (n : Nat) (c : Char) (hc : c ∈ Nat.toDigits 10 n) : isSpace c = false := by
  have hd := isDigit_toDigits n c hc
  have key : ∀ d ∈ "0123456789".toList, isSpace d = false := by decide
  refine key c ?_
  have := (StrUtil.isDigit_iff c).1 hd
  simpa using this

/-- **C98** Integers become their digits, and `atoi` gives the integer back. -/
theorem ttos_int (v : Int) : typeToString (decimal v) = decimal v ∧
    (-2147483648 ≤ v → v ≤ 2147483647 → StrUtil.atoi (typeToString (decimal v)) = some (some v)) := by
  have e : typeToString (decimal v) = decimal v := by
    rw [ttos_iff]
    intro c hc
    unfold decimal at hc
    split at hc
    · rcases List.mem_cons.1 hc with rfl | hc
      · decide
      · exact digit_not_space _ c hc
    · exact digit_not_space _ c hc
  exact ⟨e, fun h1 h2 => by rw [e]; exact atoi_decimal v h1 h2⟩

/-- Of texts with blanks and of pairs only the first word is left. -/
theorem ttos_truncates_fails (a b : Nat) : typeToString "two words".toList = "two".toList ∧
    typeToString (TextIo.pairText (a, b)) = Nat.toDigits 10 a := by
  refine ⟨by decide, ?_⟩
  have := ttos_word [] (Nat.toDigits 10 a) (' ' :: Nat.toDigits 10 b ++ [' ']) (by simp) Nat.toDigits_ne_nil
    (digit_not_space a) (.inr ⟨' ', _, rfl, by decide⟩)
  rw [← this]
  simp [TextIo.pairText]

example : typeToString (decimal (-42)) = "-42".toList := by decide

/-! ## Maps -/

open Verif.InputNg in
/-- The lines of a printed map. -/
def mapLines {β : Type} (show' : β → Str) (entries : List (Str × β)) (label : Str) : List Line :=
  entries.map fun e => .text (label ++ '[' :: e.1 ++ [']']) (show' e.2)

open Verif.InputNg in
theorem printMap_eq {β : Type} (show' : β → Str) (entries : List (Str × β)) (label : Str) :
    printMap show' entries label = render (mapLines show' entries label) := by
  have key : ∀ (es : List (Str × β)) (os : Str), es.foldl (fun os e => os ++ label ++ ['['] ++ e.1 ++ "]=".toList ++ show' e.2 ++ ['\n']) os =
      os ++ render (mapLines show' es label) := by
    intro es
    induction es with
    | nil => intro os; simp [mapLines, render]
    | cons e es ih =>
      intro os
      rw [List.foldl_cons, ih]
      have e1 : "]=".toList = [']', '='] := by decide
      rw [e1]
      simp [mapLines, render, Line.render]
  exact (key entries []).trans (List.nil_append _)

open Verif.InputNg in
/-- **C98** A map that is printed and read again is the same, after any calls in between. -/
theorem printMap_read {β : Type} [hne : Nonempty β] (show' : β → Str) (num : Str → Out β) (chk : Check) (label : Str) (entries : List (Str × β))
    (hl : IsLabel label) (hhead : label.head? ≠ some '!') (hkeys : ∀ e ∈ entries, ∀ c ∈ e.1, Plain c ∧ c ≠ '@')
    (hvals : ∀ e ∈ entries, IsValue (show' e.2)) (hnum : ∀ e ∈ entries, num (show' e.2) = .ok e.2)
    (hnd : (entries.map (·.1)).Nodup) (hsize : entries.length < 2 ^ 31)
    (hc1 : ∀ l, chk.checkSimpleLabel l = true) (hc2 : ∀ l v, chk.checkText l v = true)
    (past : List Call) (hp : ∀ c ∈ past, c.Ok) :
    ∃ r out, load chk (printMap show' entries label) = .ok r ∧ readMap num (stateAfter r past) label (fun _ => none) = .ok out ∧
      ∀ k v, out k = some v ↔ (k, v) ∈ entries := by
  have htexts : texts (mapLines show' entries label) = entries.map fun e => (label ++ '[' :: e.1 ++ [']'], show' e.2) := by
    unfold texts mapLines
    clear hkeys hvals hnum hnd hsize
    induction entries with
    | nil => rfl
    | cons e es ih =>
      rw [List.map_cons, List.flatMap_cons, List.map_cons, ih]
      rfl
  have hvecs : vecs (mapLines show' entries label) = [] := by
    unfold vecs mapLines
    rw [List.flatMap_eq_nil_iff]
    intro l hl
    obtain ⟨e, -, rfl⟩ := List.mem_map.1 hl
    rfl
  have hok : FileOk chk (mapLines show' entries label) := by
    refine ⟨?_, ?_, hc1, hc2, ?_⟩
    · intro l hl'
      obtain ⟨e, he, rfl⟩ := List.mem_map.1 hl'
      obtain ⟨⟨c, s, rfl, hc⟩, hpl⟩ := hl
      refine ⟨⟨⟨c, s ++ '[' :: e.1 ++ [']'], by simp, hc⟩, ?_⟩, by simpa using hhead, hvals e he⟩
      intro d hd
      simp only [List.cons_append, List.append_assoc, List.mem_cons, List.mem_append] at hd
      rcases hd with hd | hd | hd | hd | hd
      · exact hpl d (by simp [hd])
      · exact hpl d (by simp [hd])
      · subst hd; exact ⟨by unfold Plain; decide, by decide⟩
      · exact hkeys e he d hd
      · rcases hd with hd | hd
        · subst hd; exact ⟨by unfold Plain; decide, by decide⟩
        · cases hd
    · unfold mapLines
      clear * -
      induction entries with
      | nil => trivial
      | cons e es ih => exact ih
    · rw [htexts, hvecs]
      simpa using hsize
  have hka : KindsApart (mapLines show' entries label) := by
    intro l
    right
    rw [hvecs]
    rfl
  -- values of the texts are determined by the entries; choose a reading of texts
  classical
  obtain ⟨b0⟩ := hne
  let value : Str → β := fun s => match num s with | .ok x => x | .error _ => b0
  have hval : ∀ e ∈ entries, value (show' e.2) = e.2 := by
    intro e he
    simp only [value, hnum e he]
  have hocc : ∀ k, occ (texts (mapLines show' entries label)) (label ++ '[' :: k ++ [']']) =
      (entries.filter (·.1 = k)).map fun e => show' e.2 := by
    intro k
    rw [htexts]
    unfold occ
    clear hnd hsize hok hka htexts hvecs hkeys hvals hnum hval
    induction entries with
    | nil => rfl
    | cons e es ih =>
      by_cases h : e.1 = k
      · rw [List.map_cons, List.filter_cons_of_pos (by simp [h]), List.filter_cons_of_pos (by simp [h]), List.map_cons, List.map_cons, ih]
      · rw [List.map_cons, List.filter_cons_of_neg (by simp [h]), List.filter_cons_of_neg (by simp [h]), ih]
  have huniq : ∀ k, entries.filter (·.1 = k) = [] ∨ ∃ v, entries.filter (·.1 = k) = [(k, v)] := by
    intro k
    clear hsize hok hka htexts hvecs hkeys hvals hnum hval hocc
    induction entries with
    | nil => exact .inl rfl
    | cons e es ih =>
      simp only [List.map_cons, List.nodup_cons] at hnd
      by_cases h : e.1 = k
      · right
        refine ⟨e.2, ?_⟩
        rw [List.filter_cons_of_pos (by simp [h])]
        have : es.filter (·.1 = k) = [] := by
          rw [List.filter_eq_nil_iff]
          intro x hx hxk
          exact hnd.1 (List.mem_map.2 ⟨x, hx, by simpa [h] using hxk⟩)
        rw [this, ← h]
      · rw [List.filter_cons_of_neg (by simp [h])]
        exact ih hnd.2
  obtain ⟨r, out, h1, h2, h3⟩ := map_file (value := value) (num := num) chk _ hok hka past hp label hl (by
      intro e he _ _
      rw [htexts] at he
      obtain ⟨x, hx, rfl⟩ := List.mem_map.1 he
      exact ⟨⟨x.1, rfl⟩, by rw [hnum x hx, hval x hx]⟩) (by
      intro k
      rw [hocc]
      rcases huniq k with h | ⟨v, h⟩ <;> simp [h]) (fun _ => none)
  refine ⟨r, out, by rw [printMap_eq]; exact h1, h2, ?_⟩
  intro k v
  rw [h3, hocc]
  rcases huniq k with h | ⟨w, h⟩
  · rw [h]
    simp only [List.map_nil, reduceCtorEq, false_iff]
    intro hm
    have : (k, v) ∈ entries.filter (·.1 = k) := List.mem_filter.2 ⟨hm, by simp⟩
    rw [h] at this
    cases this
  · have hw : (k, w) ∈ entries := (List.mem_filter.1 (show (k, w) ∈ entries.filter (·.1 = k) by rw [h]; simp)).1
    rw [h]
    simp only [List.map_cons, List.map_nil, hval _ hw, Option.some.injEq]
    constructor
    · rintro rfl; exact hw
    · intro hm
      have : (k, v) ∈ entries.filter (·.1 = k) := List.mem_filter.2 ⟨hm, by simp⟩
      rw [h] at this
      simpa using (List.mem_singleton.1 this).symm

example : printMap (Nat.toDigits 10) [("a".toList, 1), ("b".toList, 20)] "m".toList = "m[a]=1\nm[b]=20\n".toList := by decide

open Verif.InputNg in
example : ∃ r out, load anyCheck (printMap (Nat.toDigits 10) [("a".toList, 1), ("b".toList, 20)] "m".toList) = .ok r ∧
    readMap (fun s => .ok (Nat.ofDigitChars 10 s 0)) (stateAfter r []) "m".toList (fun _ => none) = .ok out ∧
    ∀ k v, out k = some v ↔ (k, v) ∈ [("a".toList, 1), ("b".toList, 20)] := by
  refine printMap_read _ _ _ _ _ ⟨⟨'m', [], by decide, by unfold NumberChar; decide⟩, by unfold Plain; decide⟩ (by decide)
    (by unfold Plain; decide) ?_ (by decide) (by decide) (by decide) (fun _ => rfl) (fun _ _ => rfl) [] (by simp)
  intro e he
  simp only [List.mem_cons, List.not_mem_nil, or_false] at he
  rcases he with rfl | rfl
  · exact ⟨⟨'1', [], by decide, by unfold Plain; decide⟩, by unfold Plain; decide⟩
  · exact ⟨⟨'2', ['0'], by decide, by unfold Plain; decide⟩, by unfold Plain; decide⟩

end Verif.Host
