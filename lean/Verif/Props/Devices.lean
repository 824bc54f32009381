/- Property C87: the scripts of the benchmark that bind devices to drivers. -/
import Mathlib.Data.List.Chain
import Mathlib.Data.List.Nodup
import Verif.Bench.Devices

set_option autoImplicit false

namespace Verif.Props
open Verif.Bench.Devices

namespace DevicesSpec

/-- Addresses of domain 0. -/
def Valid (a : Addr) : Prop := a.domain = 0 ∧ a.bus < 256 ∧ a.device < 32 ∧ a.function < 8

/-- A machine: devices of domain 0 with different addresses; other texts do not contain addresses or the word `Driver`. -/
structure Machine (ds : List Device) : Prop where
  distinct : (ds.map Device.addr).Nodup
  valid : ∀ d ∈ ds, Valid d.addr
  lines : ∀ d ∈ ds, ∀ l ∈ d.before ++ d.after, (∀ d' ∈ ds, ¬ short d'.addr <:+: l) ∧ ¬ "Driver".toList <:+: l
  description : ∀ d ∈ ds, ∀ d' ∈ ds, ¬ short d'.addr <:+: d.description
  drivers : ∀ d ∈ ds, ∀ n, d.driver = some n → n ≠ [] ∧ '.' ∉ n ∧ '\t' ∉ n

/-- The driver is among the ten lines after the address, and those of other devices are not: as "10 lines is enough to cover all info of a
single device" in the script. -/
def TenLines (ds : List Device) : Prop :=
  (∀ d ∈ ds, d.before.length ≤ 9) ∧ ds.IsChain fun d d' => 8 ≤ d.before.length + d.after.length + d'.before.length

/-- The address is among the arguments. -/
def Given (args : List (Addr × Bool)) (a : Addr) : Prop := ∃ x ∈ args, x.1 = a

/-- Bound to one of the drivers for user-space input and output. -/
def IsUio (d : Device) : Prop := ∃ n, d.driver = some n ∧ (n = "igb_uio".toList ∨ n = "vfio-pci".toList ∨ n = "uio_pci_generic".toList)

end DevicesSpec
open DevicesSpec

namespace DevicesProofs

theorem digit_inj : ∀ a < 16, ∀ b < 16, digit a = digit b → a = b := by decide

theorem digit_plain : ∀ a < 16, digit a ≠ '.' ∧ digit a ≠ ' ' ∧ digit a ≠ ':' ∧ digit a ≠ 'D' := by decide

theorem short_inj {p q : Addr} (hp : Valid p) (hq : Valid q) (h : short p = short q) : p = q := by
  obtain ⟨p0, p1, p2, p3⟩ := p
  obtain ⟨q0, q1, q2, q3⟩ := q
  simp only [Valid] at hp hq
  simp only [short, List.cons.injEq, and_true, true_and] at h
  have h1 := digit_inj _ (by omega) _ (by omega) h.1
  have h2 := digit_inj _ (by omega) _ (by omega) h.2.1
  have h3 := digit_inj _ (by omega) _ (by omega) h.2.2.1
  have h4 := digit_inj _ (by omega) _ (by omega) h.2.2.2.1
  have h5 := digit_inj _ (by omega) _ (by omega) h.2.2.2.2
  rw [Addr.mk.injEq]
  omega

theorem short_mem {p : Addr} (hp : Valid p) {c : Char} (hc : c ∈ short p) :
    c = ':' ∨ c = '.' ∨ (c ≠ '.' ∧ c ≠ ' ' ∧ c ≠ ':' ∧ c ≠ 'D') := by
  simp only [short, List.mem_cons, List.not_mem_nil, or_false] at hc
  obtain ⟨-, h1, h2, h3⟩ := hp
  rcases hc with rfl | rfl | rfl | rfl | rfl | rfl | rfl
  · exact .inr (.inr (digit_plain _ (by omega)))
  · exact .inr (.inr (digit_plain _ (by omega)))
  · exact .inl rfl
  · exact .inr (.inr (digit_plain _ (by omega)))
  · exact .inr (.inr (digit_plain _ (by omega)))
  · exact .inr (.inl rfl)
  · exact .inr (.inr (digit_plain _ (by omega)))

theorem short_no_space {p : Addr} (hp : Valid p) : ' ' ∉ short p := by
  intro h
  rcases short_mem hp h with h | h | h
  · revert h; decide
  · revert h; decide
  · exact h.2.1 rfl

theorem full_zero {p : Addr} (hp : Valid p) : full p = ['0', '0', '0', '0', ':'] ++ short p := by
  obtain ⟨h, -⟩ := hp
  simp only [full, h]
  rfl

/-- Texts without '.' before an address contain no other one. -/
theorem short_infix {p q : Addr} (hp : Valid p) (hq : Valid q) {a : Line} (ha : '.' ∉ a) (h : short p <:+: a ++ short q) : p = q := by
  obtain ⟨s, t, h⟩ := h
  apply short_inj hp hq
  have hlen := congrArg List.length h
  have h7 : ∀ x, (short x).length = 7 := fun _ => rfl
  simp only [List.length_append, h7] at hlen
  have h5 : ∀ x, (short x)[5]? = some '.' := fun _ => rfl
  have hl : (s ++ short p ++ t)[s.length + 5]? = some '.' := by
    rw [List.append_assoc, List.getElem?_append_right (by omega), List.getElem?_append_left (by rw [h7]; omega)]
    rw [show s.length + 5 - s.length = 5 by omega]
    rfl
  rw [h] at hl
  have hpos : s.length = a.length := by
    by_cases hlt : s.length + 5 < a.length
    · rw [List.getElem?_append_left hlt] at hl
      exact absurd (List.mem_of_getElem? hl) ha
    · rw [List.getElem?_append_right (by omega)] at hl
      obtain ⟨-, q1, q2, q3⟩ := hq
      have g1 := (digit_plain (q.bus / 16) (by omega)).1
      have g2 := (digit_plain (q.bus % 16) (by omega)).1
      have g3 := (digit_plain (q.device / 16) (by omega)).1
      have g4 := (digit_plain (q.device % 16) (by omega)).1
      have g5 := (digit_plain q.function (by omega)).1
      generalize hk : s.length + 5 - a.length = k at hl
      match k, hl with
      | 0, hl => exact absurd (Option.some.inj hl) g1
      | 1, hl => exact absurd (Option.some.inj hl) g2
      | 2, hl => exact absurd (Option.some.inj hl) (by decide)
      | 3, hl => exact absurd (Option.some.inj hl) g3
      | 4, hl => exact absurd (Option.some.inj hl) g4
      | 5, _ => omega
      | 6, hl => exact absurd (Option.some.inj hl) g5
      | k + 7, hl => simp [short] at hl
  have ht : t = [] := List.eq_nil_of_length_eq_zero (by omega)
  rw [ht, List.append_nil] at h
  exact (List.append_inj h hpos).2

theorem infix_split {c : Char} {x u v : Line} (hx : c ∉ x) (h : x <:+: u ++ c :: v) : x <:+: u ∨ x <:+: v := by
  obtain ⟨s, t, h⟩ := h
  rw [List.append_assoc, List.append_eq_append_iff] at h
  rcases h with ⟨a, h1, h2⟩ | ⟨a, h1, h2⟩
  · rw [List.append_eq_append_iff] at h2
    rcases h2 with ⟨b, h3, h4⟩ | ⟨b, h3, h4⟩
    · exact .inl ⟨s, b, by rw [h1, h3, List.append_assoc]⟩
    · cases b with
      | nil => exact .inl ⟨s, [], by rw [h1, h3]; simp⟩
      | cons d b =>
        rw [List.cons_append, List.cons.injEq] at h4
        refine absurd ?_ hx
        rw [h3, h4.1]
        simp
  · cases a with
    | nil =>
      rw [List.nil_append] at h2
      cases x with
      | nil => exact .inl (List.nil_infix)
      | cons d x =>
        rw [List.cons_append, List.cons.injEq] at h2
        exact absurd (by rw [h2.1]; simp) hx
    | cons d a =>
      rw [List.cons_append, List.cons.injEq] at h2
      exact .inr ⟨a, t, by rw [List.append_assoc]; exact h2.2.symm⟩

theorem infix_intercalate {x : Line} (hx : ' ' ∉ x) (h0 : x ≠ []) : ∀ ls : List Line,
    x <:+: List.intercalate [' '] ls ↔ ∃ l ∈ ls, x <:+: l := by
  intro ls
  induction ls with
  | nil => simp [List.intercalate, h0]
  | cons l ls ih =>
    cases ls with
    | nil => simp [List.intercalate]
    | cons m ls =>
      have he : List.intercalate [' '] (l :: m :: ls) = l ++ ' ' :: List.intercalate [' '] (m :: ls) := by
        simp [List.intercalate]
      rw [he]
      constructor
      · intro h
        rcases infix_split hx h with h | h
        · exact ⟨l, by simp, h⟩
        · obtain ⟨l', hl, h⟩ := ih.mp h
          exact ⟨l', by simp [List.mem_cons.mp hl], h⟩
      · rintro ⟨l', hl, h⟩
        rcases List.mem_cons.mp hl with rfl | hl
        · exact h.trans (List.infix_append' [] l' _)
        · exact (ih.mpr ⟨l', hl, h⟩).trans ⟨l ++ [' '], [], by simp⟩

theorem infix_echo {args : List (Addr × Bool)} (ha : ∀ x ∈ args, Valid x.1) {p : Addr} (hp : Valid p) :
    short p <:+: echo args ↔ Given args p := by
  rw [echo, infix_intercalate (short_no_space hp) (by simp [short])]
  constructor
  · rintro ⟨l, hl, h⟩
    obtain ⟨x, hx, rfl⟩ := List.mem_map.mp hl
    refine ⟨x, hx, ?_⟩
    rw [argument] at h
    split at h
    · rw [full_zero (ha x hx)] at h
      exact (short_infix hp (ha x hx) (by decide) h).symm
    · exact (short_infix hp (ha x hx) (a := []) (by simp) h).symm
  · rintro ⟨x, hx, rfl⟩
    refine ⟨_, List.mem_map_of_mem hx, ?_⟩
    rw [argument]
    split
    · rw [full_zero hp]
      exact ⟨_, [], by rw [List.append_nil]⟩
    · exact List.infix_refl _

theorem name_zero {ds : List Device} (hm : Machine ds) (a : Addr) : name ds a = short a := by
  rw [name, if_neg]
  simp only [List.any_eq_true, decide_eq_true_eq, not_exists, not_and, not_not]
  exact fun d hd => (hm.valid d hd).1

theorem eq_of_addr {ds : List Device} (hm : Machine ds) {d d' : Device} (hd : d ∈ ds) (hd' : d' ∈ ds) (h : d.addr = d'.addr) : d = d' :=
  List.inj_on_of_nodup_map hm.distinct hd hd' h

theorem fullPci_eq {ds : List Device} (hm : Machine ds) {d : Device} (hd : d ∈ ds) : fullPci ds (short d.addr) = full d.addr := by
  have hv := hm.valid d hd
  have key : ∀ es : List Device, (∀ e ∈ es, e ∈ ds) → (es.map Device.addr).Nodup →
      grepF (short d.addr) (es.map fun d => full d.addr ++ ' ' :: d.description) =
        if d ∈ es then [full d.addr ++ ' ' :: d.description] else [] := by
    intro es
    induction es with
    | nil => intro _ _; rfl
    | cons e es ih =>
      intro hes hnd
      rw [List.map_cons, List.nodup_cons] at hnd
      have ih := ih (fun x hx => hes x (by simp [hx])) hnd.2
      have he := hes e (by simp)
      rw [List.map_cons, grepF, List.filter_cons]
      rw [grepF] at ih
      rw [ih]
      by_cases hde : d = e
      · have hi : short d.addr <:+: full e.addr ++ ' ' :: e.description := by
          rw [full_zero (hm.valid e he), hde]
          exact ⟨['0', '0', '0', '0', ':'], ' ' :: e.description, by simp⟩
        have hn : d ∉ es := by
          intro h
          apply hnd.1
          rw [← hde]
          exact List.mem_map_of_mem h
        rw [if_pos (by simpa using hi), if_neg hn, if_pos (by simp [hde]), hde]
      · have hi : ¬ short d.addr <:+: full e.addr ++ ' ' :: e.description := by
          intro h
          rcases infix_split (short_no_space hv) h with h | h
          · rw [full_zero (hm.valid e he)] at h
            exact hde (eq_of_addr hm hd he (short_infix hv (hm.valid e he) (by decide) h))
          · exact hm.description e he d hd h
        rw [if_neg (by simpa using hi)]
        simp [hde]
  rw [fullPci, lspciD, key ds (fun _ h => h) hm.distinct, if_pos hd]
  have hns : ∀ c ∈ full d.addr, decide (c ≠ ' ') = true := by
    intro c hc
    rw [decide_eq_true_eq]
    rw [full_zero hv] at hc
    rintro rfl
    rcases List.mem_append.mp hc with hc | hc
    · revert hc; decide
    · exact short_no_space hv hc
  simp only [List.map_cons, List.map_nil, cutSpace, text, List.intercalate]
  rw [List.takeWhile_append_of_pos hns]
  simp

theorem grepAfter_none {pat : Line} {n : Nat} : ∀ (k : Nat) (ls : List Line), (∀ l ∈ ls, ¬ pat <:+: l) → grepAfter pat n k ls = ls.take k := by
  intro k ls
  induction ls generalizing k with
  | nil => intro _; simp [grepAfter]
  | cons l ls ih =>
    intro h
    cases k with
    | zero =>
      rw [grepAfter, if_neg (h l (by simp))]
      simpa using ih 0 (fun x hx => h x (by simp [hx]))
    | succ k =>
      rw [grepAfter, if_neg (h l (by simp))]
      simp [ih k (fun x hx => h x (by simp [hx]))]

theorem grepAfter_skip {pat : Line} {n : Nat} : ∀ (us vs : List Line), (∀ l ∈ us, ¬ pat <:+: l) →
    grepAfter pat n 0 (us ++ vs) = grepAfter pat n 0 vs := by
  intro us vs
  induction us with
  | nil => intro _; rfl
  | cons l us ih =>
    intro h
    rw [List.cons_append, grepAfter, if_neg (h l (by simp))]
    exact ih fun x hx => h x (by simp [hx])

/-- Lines that are not the driver's. -/
abbrev Plain (l : Line) : Prop := ¬ ['D', 'r', 'i', 'v', 'e', 'r'] <:+: l

theorem plain_slot {ds : List Device} (hm : Machine ds) {e : Device} (he : e ∈ ds) : Plain (slotText ++ short e.addr) := by
  intro h
  have : 'D' ∈ slotText ++ short e.addr := h.subset (by simp)
  rcases List.mem_append.mp this with h | h
  · revert h; decide
  · rcases short_mem (hm.valid e he) h with h | h | h
    · revert h; decide
    · revert h; decide
    · exact h.2.2.2 rfl

theorem record_no_address {ds : List Device} (hm : Machine ds) {d e : Device} (hd : d ∈ ds) (he : e ∈ ds) {l : Line}
    (hl : l ∈ e.before ++ (e.driver.map (driverText ++ ·)).toList ++ e.after ++ [[]]) : ¬ short d.addr <:+: l := by
  simp only [List.mem_append, List.mem_singleton] at hl
  rcases hl with ((hl | hl) | hl) | rfl
  · exact (hm.lines e he l (by simp [hl])).1 d hd
  · cases hdr : e.driver with
    | none => rw [hdr] at hl; cases hl
    | some n =>
      rw [hdr] at hl
      simp only [Option.map_some, Option.toList_some, List.mem_singleton] at hl
      intro h
      have : '.' ∈ l := h.subset (by simp [short])
      rw [hl] at this
      rcases List.mem_append.mp this with h | h
      · revert h; decide
      · exact (hm.drivers e he n hdr).2.1 h
  · exact (hm.lines e he l (by simp [hl])).1 d hd
  · intro h
    have := List.infix_nil.mp h
    cases this

theorem cut_driver {n : Line} (hn : '\t' ∉ n) : cutTab (driverText ++ n) = n := by
  rw [cutTab, if_pos (by simp [driverText])]
  have h : ((driverText ++ n).dropWhile (fun c => decide (c ≠ '\t'))).drop 1 = n := rfl
  rw [h]
  have : ∀ c ∈ n, decide (c ≠ '\t') = true := by
    intro c hc
    rw [decide_eq_true_eq]
    rintro rfl
    exact hn hc
  have h2 := List.takeWhile_append_of_pos (l₂ := []) this
  rw [List.append_nil] at h2
  rw [h2]
  simp

theorem take_plain {k : Nat} {us vs : List Line} (hu : ∀ l ∈ us, Plain l) (hk : k ≤ us.length) :
    grepF ['D', 'r', 'i', 'v', 'e', 'r'] ((us ++ vs).take k) = [] := by
  rw [List.take_append_of_le_length hk, grepF, List.filter_eq_nil_iff]
  intro l hl
  simpa using hu l (List.mem_of_mem_take hl)

/-- The lines on drivers that the scripts get: those of the device, and perhaps of some after it. -/
theorem driver_lines {ds : List Device} (hm : Machine ds) {pre post : List Device} {d : Device} (hds : ds = pre ++ d :: post) :
    grepAfter (short d.addr) 10 0 (lspciVmmk ds) = (slotText ++ short d.addr) ::
      (d.before ++ (d.driver.map (driverText ++ ·)).toList ++ d.after ++ [[]] ++ post.flatMap (record ds)).take 10 := by
  have hd : d ∈ ds := by rw [hds]; simp
  have hne : ∀ e ∈ ds, e ≠ d → ∀ l ∈ record ds e, ¬ short d.addr <:+: l := by
    intro e he hed l hl
    rw [record, name_zero hm] at hl
    rcases List.mem_cons.mp hl with rfl | hl
    · intro h
      exact hed (eq_of_addr hm he hd (short_infix (hm.valid d hd) (hm.valid e he) (by decide) h).symm)
    · exact record_no_address hm hd he hl
  have hnd := hm.distinct
  rw [hds, List.map_append, List.map_cons, List.nodup_append] at hnd
  have hpre : ∀ e ∈ pre, e ≠ d := by
    rintro e he rfl
    exact hnd.2.2 e.addr (List.mem_map_of_mem he) e.addr (by simp) rfl
  have hpost : ∀ e ∈ post, e ≠ d := by
    rintro e he rfl
    exact (List.nodup_cons.mp hnd.2.1).1 (List.mem_map_of_mem he)
  have hv : lspciVmmk ds = pre.flatMap (record ds) ++ record ds d ++ post.flatMap (record ds) := by
    rw [lspciVmmk]
    conv_lhs => arg 2; rw [hds]
    rw [List.flatMap_append, List.flatMap_cons, List.append_assoc]
  rw [hv, List.append_assoc, grepAfter_skip]
  · rw [record, name_zero hm, List.cons_append, grepAfter, if_pos ⟨slotText, [], by simp⟩]
    congr 1
    apply grepAfter_none
    intro l hl
    rcases List.mem_append.mp hl with hl | hl
    · exact record_no_address hm hd hd hl
    · obtain ⟨e, he, hl⟩ := List.mem_flatMap.mp hl
      exact hne e (by rw [hds]; simp [he]) (hpost e he) l hl
  · intro l hl
    obtain ⟨e, he, hl⟩ := List.mem_flatMap.mp hl
    exact hne e (by rw [hds]; simp [he]) (hpre e he) l hl

theorem driverOf_eq {ds : List Device} (hm : Machine ds) (ht : TenLines ds) {d : Device} (hd : d ∈ ds) :
    driverOf ds (short d.addr) = d.driver.getD [] := by
  obtain ⟨pre, post, hds⟩ := List.append_of_mem hd
  have h1 := ht.1 d hd
  have hplain : ∀ e ∈ ds, ∀ l ∈ e.before ++ e.after, Plain l := fun e he l hl => (hm.lines e he l hl).2
  have hnil : Plain [] := by
    intro h
    cases List.infix_nil.mp h
  -- what follows in the output
  have hrest : ∀ k, k ≤ 10 - d.before.length → grepF ['D', 'r', 'i', 'v', 'e', 'r'] ((d.after ++ [[]] ++ post.flatMap (record ds)).take k) = [] := by
    intro k hk
    cases post with
    | nil =>
      rw [List.flatMap_nil, grepF, List.filter_eq_nil_iff]
      intro l hl
      have hl := List.mem_of_mem_take hl
      simp only [List.mem_append, List.mem_singleton, List.not_mem_nil, or_false] at hl
      rcases hl with hl | rfl
      · simpa using hplain d hd l (by simp [hl])
      · simp
    | cons e post =>
      have he : e ∈ ds := by rw [hds]; simp
      have h2 : 8 ≤ d.before.length + d.after.length + e.before.length := by
        have := ht.2
        rw [hds, List.isChain_append] at this
        exact (List.isChain_cons_cons.mp this.2.1).1
      have hsplit : d.after ++ [[]] ++ (e :: post).flatMap (record ds) = (d.after ++ [[]] ++ (slotText ++ short e.addr) :: e.before) ++
          ((e.driver.map (driverText ++ ·)).toList ++ e.after ++ [[]] ++ post.flatMap (record ds)) := by
        rw [List.flatMap_cons]
        conv_lhs => rw [record, name_zero hm]
        simp
      rw [hsplit]
      apply take_plain
      · intro l hl
        simp only [List.mem_append, List.mem_cons, List.not_mem_nil, or_false] at hl
        rcases hl with (hl | rfl) | rfl | hl
        · exact hplain d hd l (by simp [hl])
        · exact hnil
        · exact plain_slot hm he
        · exact hplain e he l (by simp [hl])
      · simp only [List.length_append, List.length_cons, List.length_nil]
        omega
  have hs : decide (['D', 'r', 'i', 'v', 'e', 'r'] <:+: slotText ++ short d.addr) = false := by simpa using plain_slot hm hd
  have hb : d.before.filter (fun l => decide (['D', 'r', 'i', 'v', 'e', 'r'] <:+: l)) = [] := by
    rw [List.filter_eq_nil_iff]
    intro l hl
    simpa using hplain d hd l (by simp [hl])
  rw [driverOf, driver_lines hm hds, grepF, List.filter_cons, hs]
  cases hdr : d.driver with
  | none =>
    have := hrest (10 - d.before.length) (Nat.le_refl _)
    rw [grepF] at this
    simp only [Option.map_none, Option.toList_none, List.append_nil, List.append_assoc] at this ⊢
    rw [List.take_append, List.take_of_length_le (by omega), List.filter_append, hb, this]
    rfl
  | some n =>
    have := hrest (10 - d.before.length - 1) (by omega)
    rw [grepF] at this
    have hn := (hm.drivers d hd n hdr).2.2
    have hdl : decide (['D', 'r', 'i', 'v', 'e', 'r'] <:+: driverText ++ n) = true := by
      rw [decide_eq_true_eq]
      exact ⟨[], [':', '\t'] ++ n, rfl⟩
    simp only [Option.map_some, Option.toList_some, List.append_assoc, List.cons_append, List.nil_append] at this ⊢
    rw [List.take_append, List.take_of_length_le (by omega), List.filter_append, hb]
    rw [show 10 - d.before.length = (10 - d.before.length - 1) + 1 by omega, List.take_succ_cons, List.filter_cons, hdl, this]
    simp [text, List.intercalate, cut_driver hn]

/-- If the device has a driver, the scripts find it or more. -/
theorem driverOf_ne {ds : List Device} (hm : Machine ds) {d : Device} (hd : d ∈ ds) (hb : d.before.length ≤ 9) {n : Line}
    (hdr : d.driver = some n) : driverOf ds (short d.addr) ≠ [] := by
  obtain ⟨pre, post, hds⟩ := List.append_of_mem hd
  have hs : decide (['D', 'r', 'i', 'v', 'e', 'r'] <:+: slotText ++ short d.addr) = false := by simpa using plain_slot hm hd
  have hb' : d.before.filter (fun l => decide (['D', 'r', 'i', 'v', 'e', 'r'] <:+: l)) = [] := by
    rw [List.filter_eq_nil_iff]
    intro l hl
    simpa using (hm.lines d hd l (by simp [hl])).2
  obtain ⟨hn0, -, hn⟩ := hm.drivers d hd n hdr
  have hdl : decide (['D', 'r', 'i', 'v', 'e', 'r'] <:+: driverText ++ n) = true := by
    rw [decide_eq_true_eq]
    exact ⟨[], [':', '\t'] ++ n, rfl⟩
  rw [driverOf, driver_lines hm hds, grepF, List.filter_cons, hs, hdr]
  simp only [Option.map_some, Option.toList_some, List.append_assoc, List.cons_append, List.nil_append]
  rw [List.take_append, List.take_of_length_le (by omega), List.filter_append, hb']
  rw [show 10 - d.before.length = (10 - d.before.length - 1) + 1 by omega, List.take_succ_cons, List.filter_cons, hdl]
  simp only [Bool.false_eq_true, if_false, if_true, List.nil_append, List.map_cons, cut_driver hn, text]
  generalize List.map cutTab _ = r
  cases r with
  | nil => simpa [List.intercalate] using hn0
  | cons x r => simp [List.intercalate, hn0]

/-- The state after some devices were treated. -/
def updated (f : Device → Option Line) (done : List Addr) (ds : List Device) : List Device :=
  ds.map fun d => if d.addr ∈ done then { d with driver := f d } else d

theorem updated_mem {f : Device → Option Line} {done : List Addr} {ds : List Device} {e : Device} (he : e ∈ updated f done ds) :
    ∃ d ∈ ds, e.addr = d.addr ∧ e.before = d.before ∧ e.after = d.after ∧ e.description = d.description ∧ (e.driver = d.driver ∨ e.driver = f d) := by
  obtain ⟨d, hd, rfl⟩ := List.mem_map.mp he
  refine ⟨d, hd, ?_⟩
  split <;> simp

theorem updated_machine {f : Device → Option Line} {done : List Addr} {ds : List Device} (hm : Machine ds)
    (hf : ∀ d ∈ ds, ∀ n, f d = some n → n ≠ [] ∧ '.' ∉ n ∧ '\t' ∉ n) : Machine (updated f done ds) := by
  refine ⟨?_, ?_, ?_, ?_, ?_⟩
  · have : (updated f done ds).map Device.addr = ds.map Device.addr := by
      rw [updated, List.map_map]
      refine List.map_congr_left fun d _ => ?_
      simp only [Function.comp]
      split <;> rfl
    rw [this]
    exact hm.distinct
  · intro e he
    obtain ⟨d, hd, h, -⟩ := updated_mem he
    rw [h]
    exact hm.valid d hd
  · intro e he l hl
    obtain ⟨d, hd, -, h1, h2, -⟩ := updated_mem he
    rw [h1, h2] at hl
    refine ⟨fun e' he' => ?_, (hm.lines d hd l hl).2⟩
    obtain ⟨d', hd', h, -⟩ := updated_mem he'
    rw [h]
    exact (hm.lines d hd l hl).1 d' hd'
  · intro e he e' he'
    obtain ⟨d, hd, -, -, -, h1, -⟩ := updated_mem he
    obtain ⟨d', hd', h, -⟩ := updated_mem he'
    rw [h1, h]
    exact hm.description d hd d' hd'
  · intro e he n hn
    obtain ⟨d, hd, -, -, -, -, h⟩ := updated_mem he
    rcases h with h | h
    · exact hm.drivers d hd n (by rw [← h]; exact hn)
    · exact hf d hd n (by rw [← h]; exact hn)

theorem updated_lines {f : Device → Option Line} {done : List Addr} {ds : List Device} (ht : TenLines ds) : TenLines (updated f done ds) := by
  refine ⟨fun e he => ?_, ?_⟩
  · obtain ⟨d, hd, -, h, -⟩ := updated_mem he
    rw [h]
    exact ht.1 d hd
  · rw [updated, List.isChain_map]
    refine ht.2.imp fun a b h => ?_
    have hb : ∀ d : Device, (if d.addr ∈ done then { d with driver := f d } else d).before = d.before := by intro d; split <;> rfl
    have ha : ∀ d : Device, (if d.addr ∈ done then { d with driver := f d } else d).after = d.after := by intro d; split <;> rfl
    rw [hb, hb, ha]
    exact h

theorem updated_names {f : Device → Option Line} {ds : List Device} (hm : Machine ds)
    {one : List Device → Line → List Device}
    (h : ∀ done d, d ∈ ds → d.addr ∉ done → one (updated f done ds) (short d.addr) = updated f (d.addr :: done) ds) :
    (ds.map fun d => name ds d.addr).foldl one ds = ds.map fun d => { d with driver := f d } := by
  have key : ∀ (es : List Device) (done : List Addr), (∀ e ∈ es, e ∈ ds) → (es.map Device.addr).Nodup → (∀ e ∈ es, e.addr ∉ done) →
      (es.map fun d => short d.addr).foldl one (updated f done ds) = updated f ((es.map Device.addr).reverse ++ done) ds := by
    intro es
    induction es with
    | nil => intro done _ _ _; rfl
    | cons e es ih =>
      intro done hes hnd hdone
      rw [List.map_cons, List.nodup_cons] at hnd
      rw [List.map_cons, List.foldl_cons, h done e (hes e (by simp)) (hdone e (by simp)),
        ih (e.addr :: done) (fun x hx => hes x (by simp [hx])) hnd.2 (fun x hx => ?_)]
      · simp
      · rw [List.mem_cons, not_or]
        refine ⟨fun h => hnd.1 ?_, hdone x (by simp [hx])⟩
        rw [← h]
        exact List.mem_map_of_mem hx
  have h0 : updated f [] ds = ds := by
    rw [updated]
    simp
  have hn : (ds.map fun d => name ds d.addr) = ds.map fun d => short d.addr := List.map_congr_left fun d _ => name_zero hm d.addr
  have := key ds [] (fun _ h => h) hm.distinct (by simp)
  rw [h0] at this
  rw [hn, this, updated]
  refine List.map_congr_left fun d hd => ?_
  rw [if_pos]
  simp only [List.append_nil, List.mem_reverse]
  exact List.mem_map_of_mem hd

theorem full_inj {p q : Addr} (hp : Valid p) (hq : Valid q) : full p = full q ↔ p = q := by
  constructor
  · intro h
    rw [full_zero hp, full_zero hq] at h
    exact short_inj hp hq (List.append_cancel_left h)
  · rintro rfl; rfl

theorem mem_updated {f : Device → Option Line} {done : List Addr} {ds : List Device} {d : Device} (hd : d ∈ ds) (hn : d.addr ∉ done) :
    d ∈ updated f done ds := List.mem_map.mpr ⟨d, hd, by rw [if_neg hn]⟩

/-- Changing the driver of one more device. -/
theorem updated_cons {f : Device → Option Line} {done : List Addr} {ds : List Device} (hm : Machine ds) {d : Device} (hd : d ∈ ds)
    (hn : d.addr ∉ done) {g : Device → Device} (hg : g d = { d with driver := f d }) :
    ((updated f done ds).map fun e => if full e.addr = full d.addr then g e else e) = updated f (d.addr :: done) ds := by
  rw [updated, updated, List.map_map]
  refine List.map_congr_left fun e he => ?_
  have ha : (if e.addr ∈ done then { e with driver := f e } else e).addr = e.addr := by split <;> rfl
  simp only [Function.comp, ha, full_inj (hm.valid e he) (hm.valid d hd)]
  by_cases h : e.addr = d.addr
  · have h' := eq_of_addr hm he hd h
    subst h'
    simp only [if_true, List.mem_cons, true_or]
    rw [if_neg hn, hg]
  · simp only [if_false, List.mem_cons, h, false_or]

theorem updated_same {f : Device → Option Line} {done : List Addr} {ds : List Device} (hm : Machine ds) {d : Device} (hd : d ∈ ds)
    (hn : d.addr ∉ done) (hf : f d = d.driver) : updated f done ds = updated f (d.addr :: done) ds := by
  rw [← updated_cons hm hd hn (g := fun e => e) (by rw [hf])]
  simp

theorem isUio_iff (d : Device) : IsUio d ↔ d.driver.getD [] ∈ uioDrivers := by
  cases h : d.driver with
  | none =>
    refine ⟨fun ⟨n, h', _⟩ => (by rw [h] at h'; cases h'), fun h' => ?_⟩
    rw [Option.getD_none] at h'
    exact absurd h' (by decide +kernel)
  | some n =>
    rw [IsUio, h, Option.getD_some, uioDrivers, List.mem_cons, List.mem_cons, List.mem_singleton]
    constructor
    · rintro ⟨m, hm, h'⟩
      cases hm
      exact h'
    · intro h'
      exact ⟨n, rfl, h'⟩

end DevicesProofs
open DevicesProofs

/-- Binding: afterwards the given devices, and only they, are bound to a driver for user-space input and output. Devices for which this was so are not
touched; devices that are not given keep their driver or lose one for user-space input and output. Partial: the full claim
is about all machines, with any number of lines per device and any domains. -/
theorem C87_bind_partial {ds : List Device} {args : List (Addr × Bool)} (hm : Machine ds) (ht : TenLines ds) (ha : ∀ x ∈ args, Valid x.1) :
    List.Forall₂ (fun d d' => (IsUio d' ↔ Given args d.addr) ∧ ((IsUio d ↔ Given args d.addr) → d' = d) ∧
      (¬ Given args d.addr → IsUio d → d'.driver = none) ∧ { d' with driver := d.driver } = d) ds (bindDevices args ds) := by
  classical
  let f : Device → Option Line := fun d =>
    if Given args d.addr then (if IsUio d then d.driver else some uioGeneric) else (if IsUio d then none else d.driver)
  have hf : ∀ d ∈ ds, ∀ n, f d = some n → n ≠ [] ∧ '.' ∉ n ∧ '\t' ∉ n := by
    intro d hd n hn
    have hu : uioGeneric ≠ [] ∧ '.' ∉ uioGeneric ∧ '\t' ∉ uioGeneric := by decide +kernel
    simp only [f] at hn
    split at hn <;> split at hn
    · exact hm.drivers d hd n hn
    · rw [← Option.some.inj hn]; exact hu
    · cases hn
    · exact hm.drivers d hd n hn
  have h : bindDevices args ds = ds.map fun d => { d with driver := f d } := by
    rw [bindDevices]
    refine updated_names hm fun done d hd hn => ?_
    have hm' := updated_machine (done := done) hm hf
    have hd' := mem_updated (f := f) hd hn
    have hv := hm.valid d hd
    rw [bindOne, driverOf_eq hm' (updated_lines ht) hd', fullPci_eq hm' hd']
    simp only [infix_echo ha hv, ← isUio_iff]
    by_cases hu : IsUio d
    · rw [if_pos hu]
      by_cases hg : Given args d.addr
      · rw [if_neg (not_not.mpr hg)]
        exact updated_same hm hd hn (by simp only [f, if_pos hg, if_pos hu])
      · rw [if_pos hg, unbind]
        exact updated_cons hm hd hn (g := fun e => { e with driver := none }) (by simp only [f, if_neg hg, if_pos hu])
    · rw [if_neg hu]
      by_cases hg : Given args d.addr
      · rw [if_pos hg, unbind, bindGeneric, List.map_map]
        rw [← updated_cons hm hd hn (g := fun e => { e with driver := some uioGeneric }) (by simp only [f, if_pos hg, if_neg hu])]
        refine List.map_congr_left fun e _ => ?_
        simp only [Function.comp]
        by_cases he : full e.addr = full d.addr
        · simp [he]
        · simp [he]
      · rw [if_neg hg]
        exact updated_same hm hd hn (by simp only [f, if_neg hg, if_neg hu])
  rw [h, List.forall₂_map_right_iff, List.forall₂_same]
  intro d hd
  have hug : IsUio { d with driver := some uioGeneric } := ⟨uioGeneric, rfl, .inr (.inr rfl)⟩
  by_cases hg : Given args d.addr <;> by_cases hu : IsUio d
  · have : f d = d.driver := by simp only [f, if_pos hg, if_pos hu]
    rw [this]
    exact ⟨⟨fun _ => hg, fun _ => hu⟩, fun _ => rfl, fun h => absurd hg h, rfl⟩
  · have : f d = some uioGeneric := by simp only [f, if_pos hg, if_neg hu]
    rw [this]
    exact ⟨⟨fun _ => hg, fun _ => hug⟩, fun h => absurd (h.mpr hg) hu, fun h => absurd hg h, rfl⟩
  · have : f d = none := by simp only [f, if_neg hg, if_pos hu]
    rw [this]
    refine ⟨⟨fun h => ?_, fun h => absurd h hg⟩, fun h => absurd (h.mp hu) hg, fun _ _ => rfl, rfl⟩
    obtain ⟨n, h, -⟩ := h
    cases h
  · have : f d = d.driver := by simp only [f, if_neg hg, if_neg hu]
    rw [this]
    exact ⟨⟨fun h => absurd h hu, fun h => absurd h hg⟩, fun _ => rfl, fun _ h => absurd h hu, rfl⟩

/-- Unbinding: afterwards the given devices have no driver, and the others are as before. -/
theorem C87_unbind {ds : List Device} {args : List (Addr × Bool)} (hm : Machine ds) (hb : ∀ d ∈ ds, d.before.length ≤ 9)
    (ha : ∀ x ∈ args, Valid x.1) :
    List.Forall₂ (fun d d' => (Given args d.addr → d' = { d with driver := none }) ∧ (¬ Given args d.addr → d' = d)) ds (unbindDevices args ds) := by
  classical
  let f : Device → Option Line := fun d => if Given args d.addr then none else d.driver
  have hf : ∀ d ∈ ds, ∀ n, f d = some n → n ≠ [] ∧ '.' ∉ n ∧ '\t' ∉ n := by
    intro d hd n hn
    simp only [f] at hn
    split at hn
    · cases hn
    · exact hm.drivers d hd n hn
  have h : unbindDevices args ds = ds.map fun d => { d with driver := f d } := by
    rw [unbindDevices]
    refine updated_names hm fun done d hd hn => ?_
    have hm' := updated_machine (done := done) hm hf
    have hd' := mem_updated (f := f) hd hn
    rw [unbindOne, fullPci_eq hm' hd']
    simp only [infix_echo ha (hm.valid d hd)]
    by_cases hg : Given args d.addr
    · rw [if_pos hg]
      have hfd : f d = none := by simp only [f, if_pos hg]
      split
      · rw [unbind]
        exact updated_cons hm hd hn (g := fun e => { e with driver := none }) (by rw [hfd])
      · rename_i hne
        refine updated_same hm hd hn ?_
        cases hdr : d.driver with
        | none => exact hfd
        | some n => exact absurd (driverOf_ne hm' hd' (hb d hd) hdr) hne
    · rw [if_neg hg]
      exact updated_same hm hd hn (by simp only [f, if_neg hg])
  rw [h, List.forall₂_map_right_iff, List.forall₂_same]
  intro d _
  simp only [f]
  exact ⟨fun hg => by rw [if_pos hg], fun hg => by rw [if_neg hg]⟩

namespace DevicesProofs

theorem bindOne_none {args : List (Addr × Bool)} {pci : Line} (h : ¬ pci <:+: echo args) (ds : List Device) :
    List.Forall₂ (fun d d' : Device => d' = d ∨ d' = { d with driver := none }) ds (bindOne args ds pci) := by
  rw [bindOne, if_pos h, if_neg h]
  split
  · rw [unbind, List.forall₂_map_right_iff, List.forall₂_same]
    intro d _
    split
    · exact .inr rfl
    · exact .inl rfl
  · rw [List.forall₂_same]
    exact fun _ _ => .inl rfl

end DevicesProofs

/-- "Devices given as $@ may but do not need to have the domain" is false on machines with a device of another domain: given without, nothing is ever bound
(and bound devices may be unbound), though all devices given are of domain 0. -/
theorem C87_bind_other_domain {ds : List Device} {args : List (Addr × Bool)} (hd : ∃ d ∈ ds, d.addr.domain ≠ 0)
    (hv : ∀ d ∈ ds, Valid { d.addr with domain := 0 }) (ha : ∀ x ∈ args, x.2 = false) :
    List.Forall₂ (fun d d' : Device => d' = d ∨ d' = { d with driver := none }) ds (bindDevices args ds) := by
  have hname : ∀ a, name ds a = full a := by
    intro a
    rw [name, if_pos]
    simpa using hd
  have hno : ∀ a : Addr, Valid { a with domain := 0 } → ¬ full a <:+: echo args := by
    intro a hva h
    have h1 : ':' :: short a <:+: full a := ⟨_, [], by rw [full, List.append_nil]⟩
    have hs : ' ' ∉ ':' :: short a := by
      rw [List.mem_cons, not_or]
      exact ⟨by decide, short_no_space (p := { a with domain := 0 }) hva⟩
    obtain ⟨l, hl, h⟩ := (infix_intercalate hs (by simp) _).mp (h1.trans h)
    obtain ⟨x, hx, rfl⟩ := List.mem_map.mp hl
    rw [argument, ha x hx] at h
    have := h.length_le
    simp [short] at this
  rw [bindDevices]
  have hpci : ∀ pci ∈ ds.map (fun d => name ds d.addr), ¬ pci <:+: echo args := by
    intro pci hp
    obtain ⟨d, hd, rfl⟩ := List.mem_map.mp hp
    rw [hname]
    exact hno _ (hv d hd)
  generalize (ds.map fun d => name ds d.addr) = names at hpci
  have key : ∀ (names : List Line) (es : List Device), (∀ pci ∈ names, ¬ pci <:+: echo args) →
      List.Forall₂ (fun d d' : Device => d' = d ∨ d' = { d with driver := none }) ds es →
      List.Forall₂ (fun d d' : Device => d' = d ∨ d' = { d with driver := none }) ds (names.foldl (bindOne args) es) := by
    intro names
    induction names with
    | nil => intro es _ h; exact h
    | cons n names ih =>
      intro es hn h
      refine ih _ (fun x hx => hn x (by simp [hx])) ?_
      have h2 := bindOne_none (hn n (by simp)) es
      rw [List.forall₂_iff_get] at h h2 ⊢
      refine ⟨h.1.trans h2.1, fun i hi hi' => ?_⟩
      have g1 := h.2 i hi (by rw [← h.1]; exact hi)
      have g2 := h2.2 i (by rw [← h.1]; exact hi) hi'
      rcases g2 with g2 | g2 <;> rw [g2]
      · exact g1
      · rcases g1 with g1 | g1 <;> rw [g1]
        · exact .inr rfl
        · exact .inr rfl
  exact key names ds hpci (by rw [List.forall₂_same]; exact fun _ _ => .inl rfl)

namespace DevicesProofs

def lineA : Line := "Class:\tEthernet controller".toList
def lineB : Line := "Rev:\t01".toList

/-- A network card with a driver and one without, each with six lines. -/
def normal : List Device :=
  [⟨⟨0, 0x83, 0, 0⟩, [lineA, lineA, lineA, lineA, lineA, lineB], [], "Ethernet controller".toList, some "ixgbe".toList⟩,
   ⟨⟨0, 0x85, 0, 1⟩, [lineA, lineA, lineA, lineA, lineA, lineB], [], "Ethernet controller".toList, none⟩]

/-- Devices without subsystems and revision. -/
def few : List Device :=
  [⟨⟨0, 0x83, 0, 0⟩, [lineA, lineA, lineA], [], "Ethernet controller".toList, none⟩,
   ⟨⟨0, 0x85, 0, 1⟩, [lineA, lineA, lineA], [], "Ethernet controller".toList, some uioGeneric⟩]

theorem normal_machine : Machine normal ∧ Machine few := by
  refine ⟨⟨?_, ?_, ?_, ?_, ?_⟩, ⟨?_, ?_, ?_, ?_, ?_⟩⟩ <;> try unfold Valid
  all_goals decide +kernel

end DevicesProofs

/-- The machine of the examples. -/
example : Machine normal ∧ TenLines normal ∧ ∀ x ∈ [((⟨0, 0x83, 0, 0⟩ : Addr), false), (⟨0, 0x85, 0, 1⟩, true)], Valid x.1 := by
  refine ⟨normal_machine.1, ⟨by decide, ?_⟩, by unfold Valid; decide⟩
  rw [normal, List.isChain_pair]
  decide

/-- "10 lines is enough to cover all info of a single device" does not exclude the next one: a given device without driver is taken to have the
driver of the next device, and remains unbound. -/
theorem C87_bind_few_lines : ∃ (ds : List Device) (args : List (Addr × Bool)), Machine ds ∧ (∀ x ∈ args, Valid x.1) ∧
    (∀ d ∈ ds, Given args d.addr) ∧ ∃ d ∈ bindDevices args ds, d.driver = none := by
  refine ⟨few, [(⟨0, 0x83, 0, 0⟩, false), (⟨0, 0x85, 0, 1⟩, false)], normal_machine.2, by unfold Valid; decide, by unfold Given; decide, ?_⟩
  decide +kernel

/-- Nor are "only those devices" unbound: one that is not given and has no driver gets none. -/
theorem C87_unbind_not_only {ds : List Device} {args : List (Addr × Bool)} (hm : Machine ds) (hb : ∀ d ∈ ds, d.before.length ≤ 9)
    (ha : ∀ x ∈ args, Valid x.1) {d : Device} (hd : d ∈ ds) (hn : d.driver = none) (hg : ¬ Given args d.addr) :
    ∃ d' ∈ unbindDevices args ds, ¬ Given args d'.addr ∧ d'.driver = none := by
  have h := List.forall₂_iff_get.mp (C87_unbind hm hb ha)
  obtain ⟨i, hi, hdi⟩ := List.mem_iff_getElem.mp hd
  have hi' : i < (unbindDevices args ds).length := by rw [← h.1]; exact hi
  have := (h.2 i hi hi').2 (by rw [List.get_eq_getElem, hdi]; exact hg)
  rw [List.get_eq_getElem, List.get_eq_getElem, hdi] at this
  exact ⟨d, by rw [← this]; exact List.getElem_mem _, hg, hn⟩

/-- The second device of the example, if only the first one is given. -/
example : (∀ d ∈ normal, d.before.length ≤ 9) ∧ ∃ d ∈ normal, d.driver = none ∧ ¬ Given [((⟨0, 0x83, 0, 0⟩ : Addr), false)] d.addr := by
  refine ⟨by decide, ?_⟩
  unfold Given
  decide +kernel

/-- A machine with a device of domain 0x10000, where disks are. -/
example : ∃ d ∈ normal ++ [⟨⟨0x10000, 1, 0, 0⟩, [lineA], [], [], none⟩], d.addr.domain ≠ 0 := by decide +kernel

end Verif.Props
