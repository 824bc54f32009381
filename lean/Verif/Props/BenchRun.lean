/- Properties C89 and C90: the configuration of the devices, and the script that runs the benchmark. -/
import Verif.Bench.Run

set_option autoImplicit false

namespace Verif.Props
open Verif.Bench.Devices (Line Addr short full argument echo digit)
open Verif.Bench.Run

namespace BenchRun

/-- An address that a device can have. -/
def Proper (a : Addr) : Prop := a.bus < 256 ∧ a.device < 32 ∧ a.function < 8

theorem digit_value : ∀ n < 16, hexDigit (digit n) = some n := by decide

theorem digit_other : ∀ n < 16, digit n ≠ ' ' ∧ digit n ≠ ':' ∧ digit n ≠ '.' ∧ digit n ≠ '\n' := by decide

/-- The digits of a domain. -/
def domainDigits (d : Nat) : Line := List.replicate (4 - (Nat.toDigits 16 d).length) '0' ++ Nat.toDigits 16 d

theorem domain_value : ∀ d < 256, byteConstant (domainDigits d) = some d := by decide +kernel

theorem domain_other : ∀ d < 256, domainDigits d ≠ [] ∧ ' ' ∉ domainDigits d ∧ ':' ∉ domainDigits d ∧ '.' ∉ domainDigits d ∧ '\n' ∉ domainDigits d := by
  decide +kernel

theorem two_digits (n : Nat) (h : n < 256) : byteConstant [digit (n / 16), digit (n % 16)] = some n := by
  simp only [byteConstant, List.foldlM_cons, List.foldlM_nil, digit_value _ (show n / 16 < 16 by omega), digit_value _ (show n % 16 < 16 by omega)]
  simp
  omega

theorem one_digit (n : Nat) (h : n < 16) : byteConstant [digit n] = some n := by
  simp only [byteConstant, List.foldlM_cons, List.foldlM_nil, digit_value _ h]
  simp
  omega

/-- What the configuration has for an argument. -/
def entry (x : Addr × Bool) : PciAddress :=
  if x.2 then ⟨x.1.domain, x.1.bus, x.1.device⟩ else ⟨x.1.bus, x.1.device, x.1.function⟩

theorem trDots_plain (l : Line) (h1 : ':' ∉ l) (h2 : '.' ∉ l) : trDots l = l := by
  unfold trDots
  conv_rhs => rw [← List.map_id l]
  refine List.map_congr_left fun c hc => ?_
  rw [if_neg]
  · rfl
  · rintro (rfl | rfl)
    · exact h1 hc
    · exact h2 hc

theorem trSpace_plain (l : Line) (h1 : ' ' ∉ l) : trSpace l = l := by
  unfold trSpace
  conv_rhs => rw [← List.map_id l]
  refine List.map_congr_left fun c hc => ?_
  rw [if_neg]
  · rfl
  · rintro rfl
    exact h1 hc

theorem trDots_short (a : Addr) (h : Proper a) :
    trDots (short a) = [' '].intercalate [[digit (a.bus / 16), digit (a.bus % 16)], [digit (a.device / 16), digit (a.device % 16)], [digit a.function]] := by
  obtain ⟨h1, h2, h3⟩ := h
  have d1 := digit_other (a.bus / 16) (by omega)
  have d2 := digit_other (a.bus % 16) (by omega)
  have d3 := digit_other (a.device / 16) (by omega)
  have d4 := digit_other (a.device % 16) (by omega)
  have d5 := digit_other a.function (by omega)
  simp [trDots, short, d1, d2, d3, d4, d5, List.intercalate]

theorem fields_short (a : Addr) (h : Proper a) :
    fields (trDots (short a)) = [[digit (a.bus / 16), digit (a.bus % 16)], [digit (a.device / 16), digit (a.device % 16)], [digit a.function]] := by
  have h' := h
  obtain ⟨h1, h2, h3⟩ := h'
  have d1 := digit_other (a.bus / 16) (by omega)
  have d2 := digit_other (a.bus % 16) (by omega)
  have d3 := digit_other (a.device / 16) (by omega)
  have d4 := digit_other (a.device % 16) (by omega)
  have d5 := digit_other a.function (by omega)
  rw [fields, trDots_short a h, List.splitOn_intercalate _ _ (by simp)]
  · simp
  · simp only [List.mem_cons, List.not_mem_nil, or_false]
    rintro l (rfl | rfl | rfl) <;> simp [Ne.symm d1.1, Ne.symm d2.1, Ne.symm d3.1, Ne.symm d4.1, Ne.symm d5.1]

theorem fields_full (a : Addr) (h : Proper a) (hd : a.domain < 256) :
    fields (trDots (full a)) = [domainDigits a.domain, [digit (a.bus / 16), digit (a.bus % 16)], [digit (a.device / 16), digit (a.device % 16)], [digit a.function]] := by
  have h' := h
  obtain ⟨h1, h2, h3⟩ := h'
  have d1 := digit_other (a.bus / 16) (by omega)
  have d2 := digit_other (a.bus % 16) (by omega)
  have d3 := digit_other (a.device / 16) (by omega)
  have d4 := digit_other (a.device % 16) (by omega)
  have d5 := digit_other a.function (by omega)
  have dd := domain_other _ hd
  have e : trDots (full a) = [' '].intercalate [domainDigits a.domain, [digit (a.bus / 16), digit (a.bus % 16)], [digit (a.device / 16), digit (a.device % 16)], [digit a.function]] := by
    have e1 : full a = domainDigits a.domain ++ ':' :: short a := rfl
    rw [e1]
    have e2 : trDots (domainDigits a.domain ++ ':' :: short a) = trDots (domainDigits a.domain) ++ ' ' :: trDots (short a) := by simp [trDots]
    rw [e2, trDots_plain _ dd.2.2.1 dd.2.2.2.1, trDots_short a h]
    simp [List.intercalate]
  rw [fields, e, List.splitOn_intercalate _ _ (by simp)]
  · simp [dd.1]
  · simp only [List.mem_cons, List.not_mem_nil, or_false]
    rintro l (rfl | rfl | rfl | rfl)
    · exact dd.2.1
    all_goals simp [Ne.symm d1.1, Ne.symm d2.1, Ne.symm d3.1, Ne.symm d4.1, Ne.symm d5.1]

theorem argument_other (x : Addr × Bool) (h : Proper x.1) (hd : x.2 = true → x.1.domain < 256) : ' ' ∉ argument x ∧ '\n' ∉ argument x := by
  obtain ⟨h1, h2, h3⟩ := h
  have d1 := digit_other (x.1.bus / 16) (by omega)
  have d2 := digit_other (x.1.bus % 16) (by omega)
  have d3 := digit_other (x.1.device / 16) (by omega)
  have d4 := digit_other (x.1.device % 16) (by omega)
  have d5 := digit_other x.1.function (by omega)
  have hs : ' ' ∉ short x.1 ∧ '\n' ∉ short x.1 := by
    simp [short, Ne.symm d1.1, Ne.symm d2.1, Ne.symm d3.1, Ne.symm d4.1, Ne.symm d5.1, Ne.symm d1.2.2.2, Ne.symm d2.2.2.2, Ne.symm d3.2.2.2,
      Ne.symm d4.2.2.2, Ne.symm d5.2.2.2]
  unfold argument
  split
  next hx =>
    have dd := domain_other _ (hd hx)
    have e1 : full x.1 = domainDigits x.1.domain ++ ':' :: short x.1 := rfl
    rw [e1]
    simp [dd, hs]
  · exact hs

theorem trSpace_intercalate (ls : List Line) (h : ∀ l ∈ ls, ' ' ∉ l) : trSpace ([' '].intercalate ls) = ['\n'].intercalate ls := by
  induction ls with
  | nil => rfl
  | cons l ls ih =>
    have hl := trSpace_plain l (h l List.mem_cons_self)
    have ih := ih fun m hm => h m (List.mem_cons_of_mem _ hm)
    match ls, ih with
    | [], _ => simpa [List.intercalate] using hl
    | m :: ms, ih =>
      have e : ∀ c : Char, [c].intercalate (l :: m :: ms) = l ++ c :: [c].intercalate (m :: ms) := by
        intro c
        simp [List.intercalate]
      rw [e, e, ← ih]
      have : trSpace (l ++ ' ' :: [' '].intercalate (m :: ms)) = trSpace l ++ '\n' :: trSpace ([' '].intercalate (m :: ms)) := by simp [trSpace]
      rw [this, hl]

theorem lines_echo (args : List (Addr × Bool)) (hne : args ≠ []) (h : ∀ x ∈ args, Proper x.1 ∧ (x.2 = true → x.1.domain < 256)) :
    linesOf (trSpace (echo args)) = args.map argument := by
  have ho : ∀ l ∈ args.map argument, ' ' ∉ l ∧ '\n' ∉ l := by
    intro l hl
    obtain ⟨x, hx, rfl⟩ := List.mem_map.1 hl
    exact argument_other x (h x hx).1 (h x hx).2
  rw [linesOf, echo, trSpace_intercalate _ fun l hl => (ho l hl).1]
  exact List.splitOn_intercalate _ (fun l hl => (ho l hl).2) (by simpa using hne)

theorem entry_of (x : Addr × Bool) (h : Proper x.1) (hd : x.2 = true → x.1.domain < 256) :
    (byteConstant (field (trDots (argument x)) 1)).bind (fun b => (byteConstant (field (trDots (argument x)) 2)).bind fun d =>
      (byteConstant (field (trDots (argument x)) 3)).map fun f => (⟨b, d, f⟩ : PciAddress)) = some (entry x) := by
  obtain ⟨h1, h2, h3⟩ := id h
  by_cases hx : x.2 = true
  · simp only [field, argument, hx, if_true, fields_full _ h (hd hx), entry]
    simp [domain_value _ (hd hx), two_digits _ h1, two_digits _ (show x.1.device < 256 by omega)]
  · simp only [field, argument, hx, entry]
    simp [fields_short _ h, two_digits _ h1, two_digits _ (show x.1.device < 256 by omega), one_digit _ (show x.1.function < 16 by omega)]

theorem config (args : List (Addr × Bool)) (hne : args ≠ []) (h : ∀ x ∈ args, Proper x.1 ∧ (x.2 = true → x.1.domain < 256)) :
    compileConfig (writeConfig (echo args)) = some (args.map entry) := by
  rw [compileConfig, writeConfig, lines_echo args hne h]
  clear hne
  induction args with
  | nil => rfl
  | cons x xs ih =>
    have ih := ih fun y hy => h y (List.mem_cons_of_mem _ hy)
    have hx := h x List.mem_cons_self
    simp only [List.map_cons, List.mapM_cons] at ih ⊢
    rw [entry_of x hx.1 hx.2, ih]
    rfl

end BenchRun
open BenchRun

/-- Partial: for devices given without their domain (the domain may be given in other scripts, C87). The program then has exactly the devices
given, in the same order. -/
theorem C89_config_partial (args : List Addr) (hne : args ≠ []) (h : ∀ a ∈ args, a.bus < 256 ∧ a.device < 32 ∧ a.function < 8) :
    compileConfig (writeConfig (echo (args.map fun a => (a, false)))) = some (args.map fun a => ⟨a.bus, a.device, a.function⟩) := by
  rw [config _ (by simpa using hne)]
  · simp [entry]
  · intro x hx
    obtain ⟨a, ha, rfl⟩ := List.mem_map.1 hx
    exact ⟨h a ha, by simp⟩

/-- benchmarking/config.template:8. -/
example : compileConfig (writeConfig "83:00.0 85:00.0".toList) = some [⟨0x83, 0, 0⟩, ⟨0x85, 0, 0⟩] :=
  C89_config_partial [⟨0, 0x83, 0, 0⟩, ⟨0, 0x85, 0, 0⟩] (by simp) (by simp)

/-- Disagreement: for a device given with its domain, domain, bus and device are taken to be bus, device and function. -/
theorem C89_config_domain (args : List (Addr × Bool)) (i : Nat) (a : Addr) (hi : args[i]? = some (a, true))
    (h : ∀ x ∈ args, (x.1.bus < 256 ∧ x.1.device < 32 ∧ x.1.function < 8) ∧ x.1.domain < 256) :
    ∃ c, compileConfig (writeConfig (echo args)) = some c ∧ c.length = args.length ∧ c[i]? = some ⟨a.domain, a.bus, a.device⟩ := by
  refine ⟨args.map entry, config args ?_ fun x hx => ⟨(h x hx).1, fun _ => (h x hx).2⟩, by simp, ?_⟩
  · rintro rfl
    simp at hi
  · simp [hi, entry]

example : compileConfig (writeConfig "0000:83:00.0 85:00.0".toList) = some [⟨0, 0x83, 0⟩, ⟨0x85, 0, 0⟩] := by decide +kernel

/-- The example meets the hypotheses. -/
example : ∃ c, compileConfig (writeConfig (echo [(⟨0, 0x83, 0, 0⟩, true), (⟨0, 0x85, 0, 0⟩, false)])) = some c ∧ c.length = 2 ∧
    c[0]? = some ⟨0, 0x83, 0⟩ :=
  C89_config_domain [(⟨0, 0x83, 0, 0⟩, true), (⟨0, 0x85, 0, 0⟩, false)] 0 ⟨0, 0x83, 0, 0⟩ rfl (by simp)

/-- Without devices there is no configuration: the program does not compile. -/
theorem C89_config_none : compileConfig (writeConfig (echo [])) = none := by decide +kernel

/-! The script. -/

namespace BenchRun

theorem waitLoop_found {e : Env} {t' : Nat} : ∀ (n t : Nat), waitLoop e n t = .found t' → ∃ k, 1 ≤ k ∧ k ≤ n ∧ t' = t + k ∧ seen e t' = true ∧ trapped e t' = false
  | 0, t, h => by simp [waitLoop] at h
  | n + 1, t, h => by
    rw [waitLoop] at h
    split at h
    · simp at h
    next h1 =>
      split at h
      next h2 =>
        cases h
        exact ⟨1, by omega, by omega, rfl, h2, by simpa using h1⟩
      · obtain ⟨k, k1, k2, k3, k4⟩ := waitLoop_found n (t + 1) h
        exact ⟨k + 1, by omega, by omega, by omega, k4⟩

theorem waitLoop_interrupted {e : Env} {t' : Nat} : ∀ (n t : Nat), waitLoop e n t = .interrupted t' → trapped e t' = true
  | 0, t, h => by simp [waitLoop] at h
  | n + 1, t, h => by
    rw [waitLoop] at h
    split at h
    next h1 =>
      cases h
      exact h1
    · split at h
      · simp at h
      · exact waitLoop_interrupted n (t + 1) h

theorem waitLoop_never {e : Env} {t' : Nat} : ∀ (n t : Nat), waitLoop e n t = .never t' → ∀ k, 1 ≤ k → k ≤ n → seen e (t + k) = false
  | 0, t, _, k, k1, k2 => by omega
  | n + 1, t, h, k, k1, k2 => by
    rw [waitLoop] at h
    split at h
    · simp at h
    · split at h
      · simp at h
      next h2 =>
        by_cases hk : k = 1
        · subst hk
          simpa using h2
        · have := waitLoop_never n (t + 1) h (k - 1) (by omega) (by omega)
          rwa [show t + 1 + (k - 1) = t + k by omega] at this

theorem waitLoop_all {e : Env} (hi : e.interrupt = none) : ∀ (n t : Nat), (∀ k, 1 ≤ k → k ≤ n → seen e (t + k) = false) → waitLoop e n t = .never (t + n)
  | 0, t, _ => rfl
  | n + 1, t, h => by
    rw [waitLoop, if_neg (by simp [trapped, hi]), if_neg (by simp [h 1 (by omega) (by omega)]), waitLoop_all hi n (t + 1)]
    · congr 1
      omega
    · intro k k1 k2
      rw [show t + 1 + k = t + (k + 1) by omega]
      exact h (k + 1) (by omega) (by omega)

theorem waitLoop_uninterrupted {e : Env} (hi : e.interrupt = none) : ∀ (n t t' : Nat), waitLoop e n t ≠ .interrupted t'
  | 0, t, t' => by simp [waitLoop]
  | n + 1, t, t' => by
    rw [waitLoop, if_neg (by simp [trapped, hi])]
    split
    · simp
    · exact waitLoop_uninterrupted hi n (t + 1) t'

/-- The files that the network function is started with. -/
noncomputable def hereBefore (s : Setup) (e : Env) (here : Files) : Files :=
  write (s.this ++ [s.log]) e.buildLog (getMoongen s e (removeLogs s.cwd (remove (s.cwd ++ ["results"]) here))).2

noncomputable def thereBefore (s : Setup) (e : Env) (here there : Files) : Files :=
  copyTree (getMoongen s e (removeLogs s.cwd (remove (s.cwd ++ ["results"]) here))).2 s.this there (s.remote ++ [s.base])

/-- The script either ends before the network function is started, or starts it. -/
theorem run_cases (s : Setup) (e : Env) (here there : Files) :
    (run s e here there).status = 1 ∧ (run s e here there).started = false ∧ (run s e here there).tested = none ∨
    (getMoongen s e (removeLogs s.cwd (remove (s.cwd ++ ["results"]) here))).1 = true ∧ e.rsyncOk = true ∧ e.buildOk = true ∧
      run s e here there = launch s e (hereBefore s e here) (thereBefore s e here there) := by
  unfold run hereBefore thereBefore
  dsimp only
  split
  · exact Or.inl ⟨rfl, rfl, rfl⟩
  next h1 =>
    split
    · exact Or.inl ⟨rfl, rfl, rfl⟩
    next h2 =>
      split
      · exact Or.inl ⟨rfl, rfl, rfl⟩
      next h3 =>
        refine Or.inr ⟨by simpa using h1, by simpa using h2, by simpa using h3, rfl⟩

theorem copy_outside {a b : Files} {src dst p : Path} (h : ¬ dst <+: p) : copyTree a src b dst p = b p := if_neg h

theorem copy_inside {a b : Files} {src dst r : Path} : copyTree a src b dst (dst ++ r) = (a (src ++ r)).or (b (dst ++ r)) := by
  simp [copyTree]

theorem launch_cases (s : Setup) (e : Env) (here there : Files) :
    ((launch s e here there).status = 1 ∧ (launch s e here there).tested = none ∧ (launch s e here there).here = here ∧ (launch s e here there).started = true ∧
      ((∃ t, trapped e t = true ∧ (launch s e here there).kills = [t]) ∨
        (launch s e here there).kills = [] ∧ ∀ k, 1 ≤ k → k ≤ 30 → seen e (e.initTime + k) = false)) ∨
    ∃ k, 1 ≤ k ∧ k ≤ 30 ∧ seen e (e.initTime + k) = true ∧ launch s e here there = testAndFetch s e here there (e.initTime + k) := by
  unfold launch
  split
  next h => exact Or.inl ⟨rfl, rfl, rfl, rfl, Or.inl ⟨_, h, rfl⟩⟩
  · split
    next t h => exact Or.inl ⟨rfl, rfl, rfl, rfl, Or.inl ⟨_, waitLoop_interrupted _ _ h, rfl⟩⟩
    next t h => exact Or.inl ⟨rfl, rfl, rfl, rfl, Or.inr ⟨rfl, waitLoop_never _ _ h⟩⟩
    next t h =>
      obtain ⟨k, k1, k2, rfl, k4, -⟩ := waitLoop_found _ _ h
      exact Or.inr ⟨k, k1, k2, k4, rfl⟩

theorem test_started (s : Setup) (e : Env) (here there : Files) (t : Nat) :
    (testAndFetch s e here there t).started = true ∧ ∃ k, t ≤ k ∧ (testAndFetch s e here there t).kills = [k] := by
  unfold testAndFetch
  dsimp only
  split
  · exact ⟨rfl, t + e.testTime, by omega, rfl⟩
  · generalize (if (there (s.remote ++ ["bench-tester.sh"])).isSome = true then e.tester there else (false, there)) = x
    split
    · exact ⟨rfl, t + e.testTime + e.fetchTime, by omega, rfl⟩
    · exact ⟨rfl, t + e.testTime, by omega, rfl⟩

theorem test_tested (s : Setup) (e : Env) (here there : Files) (t : Nat) :
    (testAndFetch s e here there t).tested = if (there (s.remote ++ ["bench-tester.sh"])).isSome then some there else none := by
  unfold testAndFetch
  dsimp only
  generalize (if (there (s.remote ++ ["bench-tester.sh"])).isSome = true then e.tester there else (false, there)) = x
  split
  · rfl
  · by_cases hx : x.1 = true <;> simp [hx]

theorem test_ok (s : Setup) (e : Env) (here there : Files) (t : Nat) (h : (testAndFetch s e here there t).status = 0) :
    (there (s.remote ++ ["bench-tester.sh"])).isSome ∧ (e.tester there).1 = true ∧ e.fetchOk = true ∧
      (testAndFetch s e here there t).there = (e.tester there).2 ∧
      (testAndFetch s e here there t).here = copyTree (e.tester there).2 (s.remote ++ ["results"]) here (s.this ++ ["results"]) := by
  unfold testAndFetch at h ⊢
  dsimp only at h ⊢
  by_cases hs : (there (s.remote ++ ["bench-tester.sh"])).isSome = true
  · simp only [hs, if_true] at h ⊢
    by_cases ht : trapped e (t + e.testTime) = true
    · simp [ht] at h
    · simp only [ht] at h ⊢
      by_cases hr : (e.tester there).1 = true
      · simp only [hr, if_true] at h ⊢
        by_cases hf : e.fetchOk = true
        · simp [hf]
        · simp [hf] at h
      · simp [hr] at h
  · simp only [hs] at h
    simp at h

theorem prefix_snoc_eq {d : Path} {n m : String} {r : Path} (h : d ++ [n] <+: d ++ [m] ++ r) : n = m := by
  rw [List.append_assoc, List.prefix_append_right_inj] at h
  simpa [List.cons_prefix_cons] using h

/-- A file below the folder of the script that is not below the folder of MoonGen or the log is not touched before the network function starts,
except by the removal. -/
theorem hereBefore_other (s : Setup) (e : Env) (here : Files) (n : String) (r : Path) (hn : n ≠ "moongen") (hl : n ≠ s.log) :
    hereBefore s e here (s.this ++ [n] ++ r) = removeLogs s.cwd (remove (s.cwd ++ ["results"]) here) (s.this ++ [n] ++ r) := by
  have hp : ¬ s.this ++ ["moongen"] <+: s.this ++ [n] ++ r := fun h => hn (prefix_snoc_eq h).symm
  have hw : s.this ++ [n] ++ r ≠ s.this ++ [s.log] := by
    intro h
    rw [List.append_assoc, List.append_cancel_left_eq] at h
    simp at h
    exact hl h.1
  unfold hereBefore write
  rw [if_neg hw]
  unfold getMoongen
  split
  · rfl
  · split
    · rfl
    · dsimp only
      split
      · exact copy_outside hp
      · dsimp only
        rw [copy_outside hp, remove, if_neg hp, copy_outside hp]

end BenchRun

/-- The exit status is 0 only if all went well: MoonGen is there, the scripts were copied, the network function was built and was seen within 30
seconds, the other machine ran its script with success, and the results were fetched. -/
theorem C90_status (s : Setup) (e : Env) (here there : Files) (h : (run s e here there).status = 0) :
    e.rsyncOk = true ∧ e.buildOk = true ∧ (∃ t, e.nfStart = some t ∧ t ≤ e.initTime + 30) ∧
      (∃ fs, (run s e here there).tested = some fs ∧ (e.tester fs).1 = true) ∧ e.fetchOk = true := by
  rcases run_cases s e here there with hr | ⟨-, h2, h3, hr⟩
  · omega
  · rw [hr] at h ⊢
    rcases launch_cases s e (hereBefore s e here) (thereBefore s e here there) with hl | ⟨k, k1, k2, k3, hl⟩
    · omega
    · rw [hl] at h ⊢
      obtain ⟨t1, t2, t3, -, -⟩ := test_ok s e _ _ _ h
      refine ⟨h2, h3, ?_, ⟨_, ?_, t2⟩, t3⟩
      · revert k3
        unfold seen
        split
        · simp
        next t ht =>
          intro hk
          have := of_decide_eq_true hk
          exact ⟨t, ht, by omega⟩
      · rw [test_tested, if_pos t1]

/-- Disagreement: rsync copies the folder of the script into the other one, instead of its content. What runs on the other machine is what was
there before, whatever is beside the script. -/
theorem C90_runs_what_was_there (s : Setup) (e : Env) (here there fs : Files) (h : (run s e here there).tested = some fs) (p : Path)
    (hp : ¬ s.remote ++ [s.base] <+: p) : fs p = there p := by
  rcases run_cases s e here there with ⟨-, -, hr⟩ | ⟨-, -, -, hr⟩
  · rw [hr] at h
    cases h
  · rw [hr] at h
    rcases launch_cases s e (hereBefore s e here) (thereBefore s e here there) with ⟨-, hl, -⟩ | ⟨k, -, -, -, hl⟩
    · rw [hl] at h
      cases h
    · rw [hl, test_tested] at h
      split at h
      · cases h
        exact copy_outside hp
      · cases h

/-- Disagreement: if the scripts are not there already, every run fails. -/
theorem C90_first_run_fails (s : Setup) (e : Env) (here there : Files) (hb : s.base ≠ "bench-tester.sh")
    (h : there (s.remote ++ ["bench-tester.sh"]) = none) : (run s e here there).status = 1 ∧ (run s e here there).tested = none := by
  have hp : ¬ s.remote ++ [s.base] <+: s.remote ++ ["bench-tester.sh"] := fun hh => hb (prefix_snoc_eq (d := s.remote) (r := []) (by simpa using hh))
  rcases run_cases s e here there with ⟨hr1, -, hr2⟩ | ⟨-, -, -, hr⟩
  · exact ⟨hr1, hr2⟩
  · rw [hr]
    rcases launch_cases s e (hereBefore s e here) (thereBefore s e here there) with ⟨hl1, hl2, -⟩ | ⟨k, -, -, -, hl⟩
    · exact ⟨hl1, hl2⟩
    · rw [hl, test_tested]
      have hn : thereBefore s e here there (s.remote ++ ["bench-tester.sh"]) = none := by
        rw [← h]
        exact copy_outside hp
      rw [hn]
      refine ⟨?_, rfl⟩
      unfold testAndFetch
      dsimp only
      rw [hn]
      simp

/-- Partial: for a script started in its own folder. After a run that ends well, the folder of results has exactly the files that the other
machine has as results. -/
theorem C90_results_partial (s : Setup) (e : Env) (here there : Files) (hc : s.cwd = s.this) (hl : s.log ≠ "results")
    (h : (run s e here there).status = 0) (r : Path) :
    (run s e here there).here (s.this ++ ["results"] ++ r) = (run s e here there).there (s.remote ++ ["results"] ++ r) := by
  rcases run_cases s e here there with hr | ⟨-, -, -, hr⟩
  · omega
  · rw [hr] at h ⊢
    rcases launch_cases s e (hereBefore s e here) (thereBefore s e here there) with hl | ⟨k, -, -, -, hl⟩
    · omega
    · rw [hl] at h ⊢
      obtain ⟨-, -, -, t4, t5⟩ := test_ok s e _ _ _ h
      have hb : hereBefore s e here (s.this ++ ["results"] ++ r) = none := by
        rw [hereBefore_other s e here "results" r (by decide) (Ne.symm (by assumption)), hc]
        have hd : (s.this ++ ["results"] ++ r).drop s.this.length = "results" :: r := by simp
        have hp : s.this <+: s.this ++ ["results"] ++ r := by simp
        have hg : isLog "results" = false := by decide +kernel
        rw [removeLogs, if_pos hp, hd]
        simp only [hg]
        simp [remove]
      rw [t4, t5, copy_inside, hb]
      simp

/-- Disagreement: a script started elsewhere, as Makefile:68 does from the main folder, does not remove earlier results. Those for which this
run has no file of the same name stay beside its own, and all of them if it fails. -/
theorem C90_results_stale (s : Setup) (e : Env) (here there : Files) (hc : s.cwd = s.parent) (hl : s.log ≠ "results")
    (hb : s.base ≠ "results" ∧ isLog s.base = false) (r : Path) (t : String) (ht : here (s.this ++ ["results"] ++ r) = some t)
    (hst : (run s e here there).started = true)
    (h : (run s e here there).there (s.remote ++ ["results"] ++ r) = none ∨ e.fetchOk = false ∨ ∀ fs, (e.tester fs).1 = false) :
    (run s e here there).here (s.this ++ ["results"] ++ r) = some t := by
  rcases run_cases s e here there with ⟨-, hr, -⟩ | ⟨-, -, -, hr⟩
  · rw [hr] at hst
    cases hst
  · have hk : hereBefore s e here (s.this ++ ["results"] ++ r) = some t := by
      rw [hereBefore_other s e here "results" r (by decide) (Ne.symm hl), hc, ← ht]
      have e1 : s.this ++ ["results"] ++ r = s.parent ++ (s.base :: "results" :: r) := by simp [Setup.this]
      rw [e1, removeLogs, if_pos (by simp)]
      simp only [List.drop_left, hb.2, Bool.false_eq_true, if_false]
      rw [remove, if_neg]
      intro hp
      rw [List.prefix_append_right_inj] at hp
      simp [List.cons_prefix_cons] at hp
      exact hb.1 hp.symm
    rw [hr] at h ⊢
    rcases launch_cases s e (hereBefore s e here) (thereBefore s e here there) with ⟨-, -, hl, -⟩ | ⟨k, -, -, -, hl⟩
    · rw [hl, hk]
    · rw [hl] at h ⊢
      revert h
      unfold testAndFetch
      dsimp only
      generalize hx : (if (thereBefore s e here there (s.remote ++ ["bench-tester.sh"])).isSome = true then e.tester (thereBefore s e here there)
        else (false, thereBefore s e here there)) = x
      split
      · exact fun _ => hk
      · split
        next hx1 =>
          by_cases hf : e.fetchOk = true
          · simp only [hf, if_true]
            rintro (h | h | h)
            · rw [copy_inside, h, hk]
              rfl
            · cases h
            · rw [← hx] at hx1
              split at hx1
              · rw [h] at hx1
                cases hx1
              · cases hx1
          · simp only [hf]
            exact fun _ => hk
        · exact fun _ => hk

/-- Partial: for network functions whose process appears within 30 seconds, and before any Ctrl+C. They do not run any more when the script has
ended, however it ends. -/
theorem C90_stopped_partial (s : Setup) (e : Env) (here there : Files) (t : Nat) (ht : e.nfStart = some t) (h30 : t ≤ e.initTime + 30)
    (hi : ∀ i, e.interrupt = some i → t ≤ i) : ¬ (run s e here there).Lives e := by
  rintro ⟨hs, t', ht', hk⟩
  cases ht.symm.trans ht'
  rcases run_cases s e here there with ⟨-, hr, -⟩ | ⟨-, -, -, hr⟩
  · rw [hr] at hs
    cases hs
  · rw [hr] at hk
    rcases launch_cases s e (hereBefore s e here) (thereBefore s e here there) with ⟨-, -, -, -, hl⟩ | ⟨k, -, -, k3, hl⟩
    · rcases hl with ⟨u, hu, hl⟩ | ⟨-, hl⟩
      · rw [hl] at hk
        have := hk u (by simp)
        unfold trapped at hu
        split at hu
        · cases hu
        next i hint =>
          have := hi i hint
          have := of_decide_eq_true hu
          omega
      · have := hl 30 (by omega) (by omega)
        simp [seen, ht] at this
        omega
    · obtain ⟨-, u, hu, hl'⟩ := test_started s e (hereBefore s e here) (thereBefore s e here there) (e.initTime + k)
      rw [hl, hl'] at hk
      have := hk u (by simp)
      simp [seen, ht] at k3
      omega

/-- Disagreement: a network function whose process appears later is not killed, although the script ends with an error. -/
theorem C90_slow_lives (s : Setup) (e : Env) (here there : Files) (t : Nat) (ht : e.nfStart = some t) (h30 : e.initTime + 30 < t)
    (hi : e.interrupt = none) (hs : (run s e here there).started = true) : (run s e here there).status = 1 ∧ (run s e here there).Lives e := by
  rcases run_cases s e here there with ⟨-, hr, -⟩ | ⟨-, -, -, hr⟩
  · rw [hr] at hs
    cases hs
  · have hl : launch s e (hereBefore s e here) (thereBefore s e here there) = ⟨1, hereBefore s e here, thereBefore s e here there, true, [], none⟩ := by
      unfold launch
      rw [if_neg (by simp [trapped, hi]), waitLoop_all hi 30 e.initTime]
      intro k k1 k2
      simp only [seen, ht, decide_eq_false_iff_not]
      omega
    rw [hr, hl]
    exact ⟨rfl, rfl, t, ht, by simp⟩

/-- Disagreement: nor is one that is started, and interrupted before its process appears. -/
theorem C90_interrupted_lives (s : Setup) (e : Env) (here there : Files) (t i : Nat) (ht : e.nfStart = some t) (hit : e.initTime < t)
    (hi : e.interrupt = some i) (hi' : i ≤ e.initTime) (hs : (run s e here there).started = true) : (run s e here there).Lives e := by
  rcases run_cases s e here there with ⟨-, hr, -⟩ | ⟨-, -, -, hr⟩
  · rw [hr] at hs
    cases hs
  · have hl : launch s e (hereBefore s e here) (thereBefore s e here there) = ⟨1, hereBefore s e here, thereBefore s e here there, true, [e.initTime], none⟩ := by
      unfold launch
      rw [if_pos (by simp [trapped, hi, hi'])]
    rw [hr, hl]
    exact ⟨rfl, t, ht, by simpa using hit⟩

namespace BenchRun

theorem removed_other {s : Setup} {here : Files} {n : String} {r : Path} (hc : s.cwd = s.this) (h1 : n ≠ "results") (h2 : isLog n = false) :
    removeLogs s.cwd (remove (s.cwd ++ ["results"]) here) (s.this ++ [n] ++ r) = here (s.this ++ [n] ++ r) := by
  have hd : (s.this ++ [n] ++ r).drop s.this.length = n :: r := by simp
  rw [hc, removeLogs, if_pos (by simp), hd]
  simp only [h2, Bool.false_eq_true, if_false]
  rw [remove, if_neg]
  exact fun h => h1 (prefix_snoc_eq h).symm

/-- Only results change after the network function starts. -/
theorem launch_other (s : Setup) (e : Env) (here there : Files) (p : Path) (hp : ¬ s.this ++ ["results"] <+: p) :
    (launch s e here there).here p = here p := by
  rcases launch_cases s e here there with ⟨-, -, hl, -⟩ | ⟨k, -, -, -, hl⟩
  · rw [hl]
  · rw [hl]
    unfold testAndFetch
    dsimp only
    generalize (if (there (s.remote ++ ["bench-tester.sh"])).isSome = true then e.tester there else (false, there)) = x
    split
    · rfl
    · split
      · dsimp only
        split
        · exact copy_outside hp
        · rfl
      · rfl

/-- What the script does with its folder: the removal, MoonGen, perhaps the log, and results. -/
theorem run_here (s : Setup) (e : Env) (here there : Files) (p : Path) (hp : ¬ s.this ++ ["results"] <+: p) (hl : p ≠ s.this ++ [s.log]) :
    (run s e here there).here p = (getMoongen s e (removeLogs s.cwd (remove (s.cwd ++ ["results"]) here))).2 p := by
  unfold run
  dsimp only
  split
  · rfl
  · split
    · rfl
    · split
      · exact if_neg hl
      · rw [launch_other _ _ _ _ _ hp]
        exact if_neg hl

theorem isLog_moongen : isLog "moongen" = false := by decide +kernel

theorem isDir_removed {s : Setup} {here : Files} (hc : s.cwd = s.this) :
    IsDir (s.this ++ ["moongen"]) (removeLogs s.cwd (remove (s.cwd ++ ["results"]) here)) ↔ IsDir (s.this ++ ["moongen"]) here := by
  have : ∀ q, s.this ++ ["moongen"] <+: q → removeLogs s.cwd (remove (s.cwd ++ ["results"]) here) q = here q := by
    rintro q ⟨r, rfl⟩
    exact removed_other hc (by decide) isLog_moongen
  constructor
  · rintro ⟨q, h1, h2, h3⟩
    exact ⟨q, h1, h2, by rwa [this q h1] at h3⟩
  · rintro ⟨q, h1, h2, h3⟩
    exact ⟨q, h1, h2, by rwa [this q h1]⟩

end BenchRun

/-- Partial: if MoonGen was not there, the network function is started only with the version of MoonGen that the script checks out, and that is
what the script leaves. -/
theorem C90_moongen_partial (s : Setup) (e : Env) (here there : Files) (hc : s.cwd = s.this) (hl : s.log ≠ "moongen")
    (hm : ¬ IsDir (s.this ++ ["moongen"]) here) (hs : (run s e here there).started = true) (r : Path) :
    (run s e here there).here (s.this ++ ["moongen"] ++ r) = e.checkout r := by
  rw [run_here]
  · rcases run_cases s e here there with ⟨-, hr, -⟩ | ⟨hr, -⟩
    · rw [hr] at hs
      cases hs
    · rw [← isDir_removed hc] at hm
      unfold getMoongen at hr ⊢
      rw [if_neg hm] at hr ⊢
      split at hr
      · cases hr
      next hcl =>
        rw [if_neg hcl]
        dsimp only at hr ⊢
        split at hr
        · cases hr
        next hco =>
          rw [if_neg hco]
          dsimp only
          rw [copy_inside, remove, if_pos (by simp)]
          simp
  · exact fun h => absurd (prefix_snoc_eq h) (by decide)
  · intro h
    rw [List.append_assoc, List.append_cancel_left_eq] at h
    simp at h
    exact hl h.1.symm

/-- Disagreement: if checking out the version fails, the run ends with an error, but later runs go on with the version that was cloned. -/
theorem C90_moongen_wrong (s : Setup) (e₁ e₂ : Env) (here there there₂ : Files) (hc : s.cwd = s.this) (hl : s.log ≠ "moongen")
    (hm : ¬ IsDir (s.this ++ ["moongen"]) here) (h₁ : e₁.cloneOk = true ∧ e₁.checkoutOk = false) (r : Path) (t : String) (hr : r ≠ []) (ht : e₁.clone r = some t) :
    (run s e₁ here there).status = 1 ∧ (run s e₂ (run s e₁ here there).here there₂).here (s.this ++ ["moongen"] ++ r) = some t ∧
      (e₂.rsyncOk = true → e₂.buildOk = true → (run s e₂ (run s e₁ here there).here there₂).started = true) := by
  have hg : getMoongen s e₁ (removeLogs s.cwd (remove (s.cwd ++ ["results"]) here)) =
      (false, copyTree e₁.clone [] (removeLogs s.cwd (remove (s.cwd ++ ["results"]) here)) (s.this ++ ["moongen"])) := by
    unfold getMoongen
    rw [if_neg (by rwa [isDir_removed hc]), if_neg (by simp [h₁.1])]
    simp [h₁.2]
  have h1 : run s e₁ here there = ⟨1, copyTree e₁.clone [] (removeLogs s.cwd (remove (s.cwd ++ ["results"]) here)) (s.this ++ ["moongen"]), there, false, [], none⟩ := by
    unfold run
    simp [hg]
  have hf : (run s e₁ here there).here (s.this ++ ["moongen"] ++ r) = some t := by
    rw [h1]
    dsimp only
    rw [copy_inside]
    simp [ht]
  have hd : IsDir (s.this ++ ["moongen"]) (run s e₁ here there).here :=
    ⟨s.this ++ ["moongen"] ++ r, by simp, by simpa using hr, by rw [hf]; rfl⟩
  have hg2 : getMoongen s e₂ (removeLogs s.cwd (remove (s.cwd ++ ["results"]) (run s e₁ here there).here)) =
      (true, removeLogs s.cwd (remove (s.cwd ++ ["results"]) (run s e₁ here there).here)) := by
    unfold getMoongen
    rw [if_pos (by rwa [isDir_removed hc])]
  refine ⟨by rw [h1], ?_, ?_⟩
  · rw [run_here, hg2, ← hf]
    · exact removed_other hc (by decide) isLog_moongen
    · exact fun h => absurd (prefix_snoc_eq h) (by decide)
    · intro h
      rw [List.append_assoc, List.append_cancel_left_eq] at h
      simp at h
      exact hl h.1.symm
  · intro a b
    generalize (run s e₁ here there).here = here' at hg2
    unfold run
    simp only [hg2, a, b, not_true, if_false]
    rcases launch_cases s e₂ (write (s.this ++ [s.log]) e₂.buildLog (removeLogs s.cwd (remove (s.cwd ++ ["results"]) here')))
      (copyTree (removeLogs s.cwd (remove (s.cwd ++ ["results"]) here')) s.this there₂ (s.remote ++ [s.base])) with ⟨-, -, -, hl, -⟩ | ⟨k, -, -, -, hl⟩
    · exact hl
    · rw [hl]
      exact (test_started ..).1

/-- Other files stay as they are, but for the results and logs in the folder in which the script is started. -/
theorem C90_other_files_partial (s : Setup) (e : Env) (here there : Files) (p : Path) (h1 : ¬ s.this ++ ["results"] <+: p) (h2 : ¬ s.this ++ ["moongen"] <+: p)
    (h3 : p ≠ s.this ++ [s.log]) (h4 : ¬ s.cwd ++ ["results"] <+: p) (h5 : ∀ n, s.cwd ++ [n] <+: p → ¬ ".log".toList <:+ n.toList) :
    (run s e here there).here p = here p := by
  rw [run_here s e here there p h1 h3]
  have hr : removeLogs s.cwd (remove (s.cwd ++ ["results"]) here) p = here p := by
    have : remove (s.cwd ++ ["results"]) here p = here p := if_neg h4
    unfold removeLogs
    split
    · exact this
    next n r hn =>
      split at hn
      next hp =>
        obtain ⟨q, rfl⟩ := hp
        rw [List.drop_left] at hn
        subst hn
        have hl := h5 n ⟨r, by simp⟩
        rw [if_neg, this]
        simp only [isLog, Bool.and_eq_true, not_and]
        intro h
        exact absurd (List.isSuffixOf_iff_suffix.1 h) hl
      · cases hn
  unfold getMoongen
  split
  · exact hr
  · split
    · exact hr
    · dsimp only
      split
      · dsimp only
        rw [copy_outside h2, hr]
      · dsimp only
        rw [copy_outside h2, remove, if_neg h2, copy_outside h2, hr]

/-- Disagreement: the script removes everything in the folder in which it is started whose name ends with `.log`, whatever it is. -/
theorem C90_removes_logs (s : Setup) (e : Env) (here there : Files) (n : String) (r : Path) (hn : ".log".toList <:+ n.toList) (hd : n.toList.head? ≠ some '.')
    (h1 : ¬ s.this <+: s.cwd ++ [n] ++ r) : (run s e here there).here (s.cwd ++ [n] ++ r) = none := by
  have a1 : ∀ m, ¬ s.this ++ [m] <+: s.cwd ++ [n] ++ r := fun m h => h1 ((List.prefix_append _ _).trans h)
  rw [run_here s e here there _ (a1 _) (fun h => a1 s.log (by rw [h]))]
  have hr : removeLogs s.cwd (remove (s.cwd ++ ["results"]) here) (s.cwd ++ [n] ++ r) = none := by
    have e1 : (s.cwd ++ [n] ++ r).drop s.cwd.length = n :: r := by simp
    rw [removeLogs, if_pos (by simp), e1]
    dsimp only
    rw [if_pos]
    simp only [isLog, Bool.and_eq_true, bne_iff_ne]
    exact ⟨List.isSuffixOf_iff_suffix.2 hn, hd⟩
  unfold getMoongen
  split
  · exact hr
  · split
    · exact hr
    · dsimp only
      split
      · dsimp only
        rw [copy_outside (a1 _), hr]
      · dsimp only
        rw [copy_outside (a1 _), remove, if_neg (a1 _), copy_outside (a1 _), hr]

/-- With the scripts on the other machine, a run ends well if its commands do and nobody interrupts it. -/
theorem C90_succeeds (s : Setup) (e : Env) (here there : Files) (t : Nat) (hb : s.base ≠ "bench-tester.sh")
    (hs : (there (s.remote ++ ["bench-tester.sh"])).isSome = true) (hm : e.cloneOk = true ∧ e.checkoutOk = true) (hr : e.rsyncOk = true) (hbu : e.buildOk = true)
    (ht : e.nfStart = some t) (h30 : t ≤ e.initTime + 30) (hi : e.interrupt = none) (hte : ∀ fs, (e.tester fs).1 = true) (hf : e.fetchOk = true) :
    (run s e here there).status = 0 := by
  have hp : ¬ s.remote ++ [s.base] <+: s.remote ++ ["bench-tester.sh"] := fun hh => hb (prefix_snoc_eq (d := s.remote) (r := []) (by simpa using hh))
  have hg : ∀ fs, (getMoongen s e fs).1 = true := by
    intro fs
    unfold getMoongen
    split
    · rfl
    · simp [hm]
  unfold run
  simp only [hg, hr, hbu, not_true, if_false]
  unfold launch
  rw [if_neg (by simp [trapped, hi])]
  split
  next h => exact absurd h (waitLoop_uninterrupted hi _ _ _)
  next h =>
    have := waitLoop_never _ _ h 30 (by omega) (by omega)
    simp [seen, ht] at this
    omega
  · unfold testAndFetch
    dsimp only
    rw [copy_outside hp]
    simp [hs, hte, hf, trapped, hi]

namespace BenchRunExample

def setup : Setup := ⟨["klint"], "benchmarking", ["klint", "benchmarking"], ["nf-benchmarking-scripts"], "bench.log"⟩

/-- Started as Makefile:68 does. -/
def fromRoot : Setup := { setup with cwd := ["klint"] }

def here : Files := fun p =>
  if p = ["klint", "benchmarking", "bench-tester.sh"] then some "new"
  else if p = ["klint", "benchmarking", "results", "latencies", "1000"] then some "of an earlier run"
  else if p = ["klint", "build.log"] then some "of something else"
  else none

def there : Files := fun p => if p = ["nf-benchmarking-scripts", "bench-tester.sh"] then some "old" else none

/-- What bench-tester.sh does: it writes the throughput. -/
def tester (fs : Files) : Bool × Files := (true, write ["nf-benchmarking-scripts", "results", "throughput"] "9000" fs)

def env : Env where
  cloneOk := true
  checkoutOk := true
  rsyncOk := true
  buildOk := true
  buildLog := ""
  clone p := if p = ["README.md"] then some "latest" else none
  checkout p := if p = ["README.md"] then some "525d991" else none
  nfStart := some 2
  initTime := 0
  testTime := 300
  fetchTime := 1
  interrupt := none
  tester := tester
  fetchOk := true

theorem ends_well (s : Setup) (hs : s = setup ∨ s = fromRoot) : (run s env here there).status = 0 := by
  rcases hs with rfl | rfl
  · exact C90_succeeds setup env here there 2 (by decide) rfl ⟨rfl, rfl⟩ rfl rfl rfl (by decide) rfl (fun _ => rfl) rfl
  · exact C90_succeeds fromRoot env here there 2 (by decide) rfl ⟨rfl, rfl⟩ rfl rfl rfl (by decide) rfl (fun _ => rfl) rfl

theorem no_moongen : ¬ IsDir (setup.this ++ ["moongen"]) here := by
  rintro ⟨q, ⟨r, rfl⟩, -, h⟩
  simp [here, setup, Setup.this] at h

theorem starts (s : Setup) (e : Env) (h t : Files) (hm : e.cloneOk = true ∧ e.checkoutOk = true) (hr : e.rsyncOk = true) (hb : e.buildOk = true) :
    (run s e h t).started = true := by
  have hg : ∀ fs, (getMoongen s e fs).1 = true := by
    intro fs
    unfold getMoongen
    split
    · rfl
    · simp [hm]
  unfold run
  simp only [hg, hr, hb, not_true, if_false]
  rcases launch_cases s e _ _ with ⟨-, -, -, hl, -⟩ | ⟨k, -, -, -, hl⟩
  · exact hl
  · rw [hl]
    exact (test_started ..).1

end BenchRunExample
open BenchRunExample in
example : ∃ fs, (run setup env BenchRunExample.here BenchRunExample.there).tested = some fs ∧ fs ["nf-benchmarking-scripts", "bench-tester.sh"] = some "old" := by
  obtain ⟨-, -, -, ⟨fs, h, -⟩, -⟩ := C90_status setup env _ _ (ends_well setup (Or.inl rfl))
  refine ⟨fs, h, ?_⟩
  rw [C90_runs_what_was_there setup env _ _ fs h _ (by decide)]
  rfl

open BenchRunExample in
example : (run setup env BenchRunExample.here fun _ => none).status = 1 := (C90_first_run_fails setup env _ _ (by decide) rfl).1

open BenchRunExample in
example : (run setup env BenchRunExample.here BenchRunExample.there).here ["klint", "benchmarking", "results", "latencies", "1000"] =
    (run setup env BenchRunExample.here BenchRunExample.there).there ["nf-benchmarking-scripts", "results", "latencies", "1000"] :=
  C90_results_partial setup env _ _ rfl (by decide) (ends_well setup (Or.inl rfl)) ["latencies", "1000"]

open BenchRunExample in
/-- Although the run ends well, there is a latency of an earlier one beside its throughput. -/
example : (run fromRoot env BenchRunExample.here BenchRunExample.there).here ["klint", "benchmarking", "results", "latencies", "1000"] =
    some "of an earlier run" := by
  refine C90_results_stale fromRoot env _ _ rfl (by decide) ⟨by decide, by decide +kernel⟩ ["latencies", "1000"] _ rfl
    (starts _ _ _ _ ⟨rfl, rfl⟩ rfl rfl) (Or.inl ?_)
  have h := ends_well fromRoot (Or.inr rfl)
  rcases run_cases fromRoot env BenchRunExample.here BenchRunExample.there with hr | ⟨-, -, -, hr⟩
  · omega
  · rw [hr] at h ⊢
    rcases launch_cases fromRoot env (hereBefore fromRoot env BenchRunExample.here) (thereBefore fromRoot env BenchRunExample.here BenchRunExample.there)
      with hl | ⟨k, -, -, -, hl⟩
    · omega
    · rw [hl] at h ⊢
      obtain ⟨-, -, -, t4, -⟩ := test_ok fromRoot env _ _ _ h
      rw [t4]
      have e1 : ∀ fs : Files, (env.tester fs).2 (fromRoot.remote ++ ["results"] ++ ["latencies", "1000"]) = fs (fromRoot.remote ++ ["results"] ++ ["latencies", "1000"]) :=
        fun fs => by simp [env, BenchRunExample.tester, write, fromRoot, setup]
      rw [e1, thereBefore, copy_outside (by decide)]
      rfl

open BenchRunExample in
example : ¬ (run setup { env with interrupt := some 5 } BenchRunExample.here BenchRunExample.there).Lives { env with interrupt := some 5 } :=
  C90_stopped_partial setup _ _ _ 2 rfl (by decide) (by rintro i h; cases h; decide)

open BenchRunExample in
example : (run setup { env with nfStart := some 31 } BenchRunExample.here BenchRunExample.there).Lives { env with nfStart := some 31 } :=
  (C90_slow_lives setup { env with nfStart := some 31 } _ _ 31 rfl (by decide) rfl (starts _ _ _ _ ⟨rfl, rfl⟩ rfl rfl)).2

open BenchRunExample in
example : (run setup { env with interrupt := some 0 } BenchRunExample.here BenchRunExample.there).Lives { env with interrupt := some 0 } :=
  C90_interrupted_lives setup { env with interrupt := some 0 } _ _ 2 0 rfl (by decide) rfl (by decide) (starts _ _ _ _ ⟨rfl, rfl⟩ rfl rfl)

open BenchRunExample in
example : (run setup env BenchRunExample.here BenchRunExample.there).here ["klint", "benchmarking", "moongen", "README.md"] = some "525d991" :=
  C90_moongen_partial setup env _ _ rfl (by decide) no_moongen (starts _ _ _ _ ⟨rfl, rfl⟩ rfl rfl) ["README.md"]

open BenchRunExample in
example : (run setup env (run setup { env with checkoutOk := false } BenchRunExample.here BenchRunExample.there).here BenchRunExample.there).here
    ["klint", "benchmarking", "moongen", "README.md"] = some "latest" :=
  (C90_moongen_wrong setup { env with checkoutOk := false } env _ _ _ rfl (by decide) no_moongen ⟨rfl, rfl⟩ ["README.md"] _ (by decide) rfl).2.1

open BenchRunExample in
example : (run fromRoot env BenchRunExample.here BenchRunExample.there).here ["klint", "build.log"] = none :=
  C90_removes_logs fromRoot env _ _ "build.log" [] ⟨['b', 'u', 'i', 'l', 'd'], by decide +kernel⟩ (by decide +kernel) (by decide)

open BenchRunExample in
example : (run setup env BenchRunExample.here BenchRunExample.there).here ["klint", "build.log"] = some "of something else" := by
  rw [C90_other_files_partial setup env _ _ _ (by decide) (by decide) (by decide) (by decide)]
  · rfl
  · rintro n h
    exact absurd h (by simp [setup, List.cons_prefix_cons])

end Verif.Props
