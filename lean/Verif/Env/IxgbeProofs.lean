/- The invariant of the driver's packet processing (model in Verif.Env.Ixgbe). -/
import Verif.Env.Ixgbe
import Mathlib.Tactic.Common

set_option autoImplicit false

namespace Verif.Ixgbe

variable {σ D : Type}

/-! ### Specification: handling packets one after the other -/

/-- Give each packet to the handler, with an array of zeros; the state afterwards, and
the contents and output lengths of each packet. -/
def handleAll (h : Handler σ D) (nf : σ) : List (D × Nat) → σ × List (D × (Nat → Nat))
  | [] => (nf, [])
  | p :: ps =>
    let r := h nf p.1 p.2 fun _ => 0
    let rest := handleAll h r.1 ps
    (rest.1, (r.2.1, r.2.2) :: rest.2)

theorem handleAll_length (h : Handler σ D) (nf : σ) (l : List (D × Nat)) : (handleAll h nf l).2.length = l.length := by
  induction l generalizing nf with
  | nil => rfl
  | cons p ps ih => simp [handleAll, ih]

theorem handleAll_append (h : Handler σ D) (nf : σ) (l : List (D × Nat)) (p : D × Nat) :
    handleAll h nf (l ++ [p]) =
      let a := handleAll h nf l
      let r := h a.1 p.1 p.2 fun _ => 0
      (r.1, a.2 ++ [(r.2.1, r.2.2)]) := by
  induction l generalizing nf with
  | nil => rfl
  | cons q qs ih => simp [handleAll, ih]

/-- Handling more packets does not change the results of the earlier ones. -/
theorem handleAll_take (h : Handler σ D) (nf : σ) (l : List (D × Nat)) (k : Nat) :
    (handleAll h nf (l.take k)).2 = (handleAll h nf l).2.take k := by
  induction l generalizing nf k with
  | nil => simp [handleAll]
  | cons q qs ih => cases k <;> simp [handleAll, ih]

/-! ### Arrays and metadata -/

@[simp] theorem upd_same {α : Type} (f : Nat → α) (i : Nat) (v : α) : upd f i v i = v := by simp [upd]
theorem upd_other {α : Type} (f : Nat → α) (i : Nat) (v : α) (j : Nat) (h : j ≠ i) : upd f i v j = f j := by simp [upd, h]

theorem testBit_small (len i : Nat) (h : len < 2 ^ 16) (hi : 16 ≤ i) : len.testBit i = false :=
  Nat.testBit_lt_two_pow (Nat.lt_of_lt_of_le h (Nat.pow_le_pow_right (by omega) hi))

theorem txMeta_done (len : Nat) (rs : Bool) (h : len < 2 ^ 16) : done (txMeta len rs) = false := by
  have := testBit_small len 32 h (by omega)
  have hm : len % 18446744073709551616 = len := Nat.mod_eq_of_lt (by omega)
  cases rs <;> simp [done, txMeta, BitVec.getElem_eq_testBit_toNat, hm, this] <;> decide

theorem txMeta_rs (len : Nat) (rs : Bool) (h : len < 2 ^ 16) : (txMeta len rs).getLsbD 27 = rs := by
  have := testBit_small len 27 h (by omega)
  have hm : len % 18446744073709551616 = len := Nat.mod_eq_of_lt (by omega)
  cases rs <;> simp [txMeta, BitVec.getElem_eq_testBit_toNat, hm, this] <;> decide

theorem txMeta_len (len : Nat) (rs : Bool) (h : len < 2 ^ 16) : lenOf (txMeta len rs) = len := by
  have h27 : ∀ i < 16, Nat.testBit 134217728 i = false := by decide
  have h25 : ∀ i < 16, Nat.testBit 33554432 i = false := by decide
  have h24 : ∀ i < 16, Nat.testBit 16777216 i = false := by decide
  unfold lenOf txMeta
  have hm : len % 2 ^ 64 = len := Nat.mod_eq_of_lt (by omega)
  apply Nat.eq_of_testBit_eq
  intro i
  rw [Nat.testBit_mod_two_pow]
  by_cases hi : i < 16
  · cases rs <;> simp [hi, Nat.testBit_or, hm, h27 i hi, h25 i hi, h24 i hi]
  · simp [hi, testBit_small len i h (by omega)]

/-! ### The invariant -/

/-- The lengths a handler chooses fit the descriptor. -/
def Bounded (outs : Nat) (h : Handler σ D) : Prop :=
  ∀ nf d len n, len < 2 ^ 16 → n < outs → (h nf d len fun _ => 0).2.2 n < 2 ^ 16

/-- What the driver's indices stand for, counted from the start instead of modulo the size
of the ring. -/
structure Ghost where
  /-- Packets processed. -/
  P : Nat
  /-- The earliest head of the last recycling. -/
  E : Nat
  /-- Tail of each output. -/
  T : Nat → Nat
  /-- Head of each output in memory. -/
  W : Nat → Nat
  /-- Head of each output to be written back. -/
  V : Nat → Nat

/-- One packet has been handled but not yet been counted as processed. -/
def current : Pc → Nat
  | .writeDesc .. => 1
  | .advance .. => 1
  | _ => 0

/-- The results of the handler for all packets received. -/
abbrev results (h : Handler σ D) (nf0 : σ) (s : St σ D) : List (D × (Nat → Nat)) := (handleAll h nf0 s.received).2

/-- The current packet: its descriptors below `n` have been written. -/
def Current (outs : Nat) (h : Handler σ D) (nf0 : σ) (s : St σ D) (P n : Nat) (rs : Bool) : Prop :=
  P < s.received.length ∧ rs = decide (P % 64 = 63) ∧ ∃ o, (results h nf0 s)[P]? = some o ∧ s.buf (P % 256) = o.1 ∧
    (∀ j < n, j < outs → s.ring j (P % 256) = txMeta (o.2 j) rs) ∧
    ∀ j, s.lengths j = if n ≤ j ∧ j < outs then o.2 j else 0

/-- The earliest of the heads below `n`, as read. -/
def Earliest (outs : Nat) (g : Ghost) (n e : Nat) : Prop :=
  0 < g.P ∧ g.P % 64 = 0 ∧ (∀ j < outs, g.T j < g.P) ∧ 
    ∃ m, e = m % 256 ∧ g.E ≤ m ∧ m < g.P ∧ ∀ j < n, j < outs → m ≤ g.W j

/-- What holds at each place. -/
def PcOk (outs : Nat) (h : Handler σ D) (nf0 : σ) (s : St σ D) (g : Ghost) : Prop :=
  match s.pc with
  | .poll fc => (∀ j, s.lengths j = 0) ∧ fc ≤ 8 ∧ (fc = 0 → ∀ n < outs, g.T n = g.P)
  | .handle fc len => (∀ j, s.lengths j = 0) ∧ fc < 8 ∧ ∃ p, s.received[g.P]? = some p ∧ len = p.2
  | .writeDesc fc n rs => fc < 8 ∧ n ≤ outs ∧ Current outs h nf0 s g.P n rs
  | .advance fc rs => fc < 8 ∧ Current outs h nf0 s g.P outs rs
  | .readHead fc n e d => (∀ j, s.lengths j = 0) ∧ fc < 8 ∧ n ≤ outs ∧
      ((n = 0 ∧ d = 2 ^ 64 - 1 ∧ 0 < g.P ∧ g.P % 64 = 0 ∧ ∀ j < outs, g.T j < g.P) ∨
        (Earliest outs g n e ∧ d = (e + 2 ^ 64 - s.pd) % 2 ^ 64))
  | .writeTail fc e => (∀ j, s.lengths j = 0) ∧ fc < 8 ∧ Earliest outs g outs e
  | .flush n => (∀ j, s.lengths j = 0) ∧ n ≤ outs ∧ ∀ j < n, g.T j = g.P

/-- The invariant. -/
structure Inv (outs : Nat) (h : Handler σ D) (nf0 : σ) (s : St σ D) (g : Ghost) : Prop where
  rdh : s.rdh = s.received.length % 256
  rdt : s.rdt = (g.E + 255) % 256
  room : s.received.length ≤ g.E + 255
  le : g.P ≤ s.received.length
  pd : s.pd = g.P % 256
  tdh : ∀ n < outs, s.tdh n = (s.sent n).length % 256
  tdt : ∀ n < outs, s.tdt n = g.T n % 256
  st : ∀ n < outs, (s.sent n).length ≤ g.T n
  tp : ∀ n < outs, g.T n ≤ g.P
  heads : ∀ n < outs, s.heads n = g.W n % 256
  reported : ∀ n < outs, s.reported n = g.V n % 256
  wv : ∀ n < outs, g.W n ≤ g.V n
  vs : ∀ n < outs, g.V n ≤ (s.sent n).length
  ew : ∀ n < outs, g.E ≤ g.W n
  small : ∀ p ∈ s.received, p.2 < 2 ^ 16
  rx : ∀ k, g.P + current s.pc ≤ k → k < s.received.length →
    ∃ p, s.received[k]? = some p ∧ done (s.ring 0 (k % 256)) = true ∧ lenOf (s.ring 0 (k % 256)) = p.2 ∧
      s.buf (k % 256) = p.1
  free : ∀ k, s.received.length ≤ k → k < g.P + 256 → done (s.ring 0 (k % 256)) = false
  tx : ∀ n < outs, ∀ k, (s.sent n).length ≤ k → k < g.P →
    ∃ o, (results h nf0 s)[k]? = some o ∧ s.ring n (k % 256) = txMeta (o.2 n) (decide (k % 64 = 63)) ∧
      s.buf (k % 256) = o.1
  sent : ∀ n < outs, s.sent n = ((results h nf0 s).take (s.sent n).length).map fun o => (o.1, o.2 n)
  nf : s.nf = (handleAll h nf0 (s.received.take (g.P + current s.pc))).1
  pcOk : PcOk outs h nf0 s g

theorem inv_start (outs : Nat) (h : Handler σ D) (nf0 : σ) (buf : Nat → D) :
    Inv outs h nf0 (start nf0 buf) ⟨0, 0, fun _ => 0, fun _ => 0, fun _ => 0⟩ := by
  constructor <;> simp [start, PcOk, current, handleAll, done]

theorem results_bounded {outs : Nat} {h : Handler σ D} (hb : Bounded outs h) (nf0 : σ) (l : List (D × Nat))
    (hl : ∀ p ∈ l, p.2 < 2 ^ 16) (k : Nat) (o : D × (Nat → Nat)) (ho : (handleAll h nf0 l).2[k]? = some o)
    (n : Nat) (hn : n < outs) : o.2 n < 2 ^ 16 := by
  induction l generalizing nf0 k with
  | nil => simp [handleAll] at ho
  | cons p ps ih =>
    cases k with
    | zero =>
      simp [handleAll] at ho
      subst ho
      exact hb _ _ _ _ (hl p (by simp)) hn
    | succ k => exact ih _ (fun q hq => hl q (by simp [hq])) k (by simpa [handleAll] using ho)

/-- More received packets keep the results. -/
theorem results_mono (h : Handler σ D) (nf0 : σ) (l : List (D × Nat)) (p : D × Nat) (k : Nat) (o : D × (Nat → Nat))
    (ho : (handleAll h nf0 l).2[k]? = some o) : (handleAll h nf0 (l ++ [p])).2[k]? = some o := by
  rw [handleAll_append]
  have := (List.getElem?_eq_some_iff.1 ho).1
  simp only
  rw [List.getElem?_append_left this]
  exact ho

/-! ### The steps of the cards -/

section Cards
variable {outs : Nat} {h : Handler σ D} {nf0 : σ} {s : St σ D} {g : Ghost}

/-- The slot at the receive head is not one of those in use. -/
theorem Inv.apart (hi : Inv outs h nf0 s g) (hne : s.rdh ≠ s.rdt) (n : Nat) (hn : n < outs)
    (k : Nat) (hk : (s.sent n).length ≤ k) (hk' : k < s.received.length) : k % 256 ≠ s.rdh := by
  have := hi.rdh; have := hi.rdt; have := hi.room
  have := hi.ew n hn; have := hi.wv n hn; have := hi.vs n hn
  omega

theorem Inv.order (hi : Inv outs h nf0 s g) (n : Nat) (hn : n < outs) :
    g.E ≤ g.W n ∧ g.W n ≤ g.V n ∧ g.V n ≤ (s.sent n).length ∧ (s.sent n).length ≤ g.T n ∧ g.T n ≤ g.P ∧
      g.P ≤ s.received.length ∧ s.received.length ≤ g.E + 255 :=
  ⟨hi.ew n hn, hi.wv n hn, hi.vs n hn, hi.st n hn, hi.tp n hn, hi.le, hi.room⟩

theorem Inv.cur_le (hi : Inv outs h nf0 s g) : g.P + current s.pc ≤ s.received.length := by
  have := hi.le
  have hp := hi.pcOk
  unfold PcOk at hp
  cases hpc : s.pc <;> rw [hpc] at hp <;> simp only [current] <;> first
    | omega
    | exact hp.2.2.1
    | exact hp.2.1

theorem inv_fill (hi : Inv outs h nf0 s g) (ho : 0 < outs) (d : D) (hne : s.rdh ≠ s.rdt) :
    Inv outs h nf0 { s with buf := upd s.buf s.rdh d } g := by
  have ap := fun k => hi.apart hne 0 ho k
  have o0 := hi.order 0 ho
  refine { hi with rx := ?_, tx := ?_, pcOk := ?_ }
  · intro k h1 h2
    obtain ⟨p, a, b, c, e⟩ := hi.rx k h1 h2
    exact ⟨p, a, b, c, by rw [← e]; exact upd_other _ _ _ _ (ap k (by omega) h2)⟩
  · intro n hn k h1 h2
    obtain ⟨o, a, b, e⟩ := hi.tx n hn k h1 h2
    exact ⟨o, a, b, by rw [← e]; exact upd_other _ _ _ _ (hi.apart hne n hn k h1 (by omega))⟩
  · have := hi.pcOk
    unfold PcOk at this ⊢
    revert this
    have key : ∀ n rs, Current outs h nf0 s g.P n rs → Current outs h nf0 { s with buf := upd s.buf s.rdh d } g.P n rs := by
      rintro n rs ⟨a, b, o, c, e, f⟩
      exact ⟨a, b, o, c, by rw [← e]; exact upd_other _ _ _ _ (ap g.P (by omega) a), f⟩
    dsimp only
    split <;> first
      | exact id
      | (rintro ⟨a, b, c⟩; exact ⟨a, b, key _ _ c⟩)
      | (rintro ⟨a, b⟩; exact ⟨a, key _ _ b⟩)

theorem inv_complete (hi : Inv outs h nf0 s g) (ho : 0 < outs) (m : BitVec 64) (hne : s.rdh ≠ s.rdt)
    (hm : done m = true) :
    Inv outs h nf0 { s with
        ring := upd s.ring 0 (upd (s.ring 0) s.rdh m)
        rdh := (s.rdh + 1) % ringSize
        received := s.received ++ [(s.buf s.rdh, lenOf m)] } g := by
  have ap := fun k => hi.apart hne 0 ho k
  have o0 := hi.order 0 ho
  have hr := hi.rdh
  have ht := hi.rdt
  have hroom : s.received.length < g.E + 255 := by omega
  have ring_eq : ∀ n k, k % 256 ≠ s.rdh → upd s.ring 0 (upd (s.ring 0) s.rdh m) n (k % 256) = s.ring n (k % 256) := by
    intro n k hk
    by_cases hn : n = 0
    · subst hn; simp only [upd_same]; exact upd_other _ _ _ _ hk
    · rw [upd_other _ _ _ _ hn]
  have cur_le := hi.cur_le
  constructor <;> try dsimp only
  · rw [hr]; simp
  · exact ht
  · simp; omega
  · simp; omega
  · exact hi.pd
  · exact hi.tdh
  · exact hi.tdt
  · exact hi.st
  · exact hi.tp
  · exact hi.heads
  · exact hi.reported
  · exact hi.wv
  · exact hi.vs
  · exact hi.ew
  · intro p hp
    rcases List.mem_append.1 hp with hp | hp
    · exact hi.small p hp
    · simp at hp; subst hp; exact Nat.mod_lt _ (by omega)
  · intro k h1 h2
    by_cases hk : k < s.received.length
    · obtain ⟨p, a, b, c, e⟩ := hi.rx k h1 hk
      have ne := ap k (by omega) hk
      rw [ring_eq 0 k ne]
      exact ⟨p, by rw [List.getElem?_append_left hk]; exact a, b, c, e⟩
    · have : k = s.received.length := by simp at h2; omega
      subst this
      rw [← hr]
      refine ⟨(s.buf s.rdh, lenOf m), by simp, ?_, ?_, rfl⟩ <;> simp [hm]
  · intro k h1 h2
    simp at h1
    rw [ring_eq 0 k (by omega)]
    exact hi.free k (by omega) h2
  · intro n hn k h1 h2
    obtain ⟨o, a, b, e⟩ := hi.tx n hn k h1 h2
    rw [ring_eq n k (hi.apart hne n hn k h1 (by omega))]
    exact ⟨o, results_mono _ _ _ _ _ _ a, b, e⟩
  · intro n hn
    have l := handleAll_length h nf0 s.received
    have o' := hi.order n hn
    have := hi.sent n hn
    conv_lhs => rw [this]
    simp only [results]
    rw [handleAll_append]
    simp only
    rw [List.take_append_of_le_length (by omega)]
  · rw [List.take_append_of_le_length cur_le]
    exact hi.nf
  · have := hi.pcOk
    unfold PcOk at this ⊢
    revert this
    have key : ∀ n rs, Current outs h nf0 s g.P n rs → Current outs h nf0 { s with
        ring := upd s.ring 0 (upd (s.ring 0) s.rdh m)
        rdh := (s.rdh + 1) % ringSize
        received := s.received ++ [(s.buf s.rdh, lenOf m)] } g.P n rs := by
      rintro n rs ⟨a, b, o, c, e, f, g'⟩
      refine ⟨by simp; omega, b, o, results_mono _ _ _ _ _ _ c, e, ?_, g'⟩
      intro j hj hj'
      exact (ring_eq j _ (ap g.P (by omega) a)).trans (f j hj hj')
    dsimp only
    split <;> first
      | exact id
      | (rintro ⟨a, b, c⟩; exact ⟨a, b, key _ _ c⟩)
      | (rintro ⟨a, b⟩; exact ⟨a, key _ _ b⟩)
      | (rintro ⟨a, b, p, c, e⟩
         exact ⟨a, b, p, by rw [List.getElem?_append_left (List.getElem?_eq_some_iff.1 c).1]; exact c, e⟩)

theorem inv_send (hb : Bounded outs h) (hi : Inv outs h nf0 s g) (n : Nat) (hn : n < outs) (hne : s.tdh n ≠ s.tdt n) :
    ∃ g', Inv outs h nf0 { s with
        sent := upd s.sent n (s.sent n ++ [(s.buf (s.tdh n), lenOf (s.ring n (s.tdh n)))])
        tdh := upd s.tdh n ((s.tdh n + 1) % ringSize)
        reported := if (s.ring n (s.tdh n)).getLsbD 27 then upd s.reported n ((s.tdh n + 1) % ringSize)
          else s.reported } g' ∧ g'.P = g.P ∧ g'.E = g.E := by
  have o := hi.order n hn
  have h1 := hi.tdh n hn
  have h2 := hi.tdt n hn
  have hlt : (s.sent n).length < g.T n := by
    rcases Nat.lt_or_ge (s.sent n).length (g.T n) with h' | h'
    · exact h'
    · exfalso; apply hne; rw [h1, h2]; congr 1; omega
  obtain ⟨r, hr1, hr2, hr3⟩ := hi.tx n hn _ (Nat.le_refl _) (by omega)
  rw [← h1] at hr2 hr3
  have hlen : r.2 n < 2 ^ 16 := results_bounded hb nf0 _ hi.small _ _ hr1 n hn
  refine ⟨{ g with V := if (s.ring n (s.tdh n)).getLsbD 27 then upd g.V n ((s.sent n).length + 1) else g.V }, ?_, rfl, rfl⟩
  constructor <;> try dsimp only
  · exact hi.rdh
  · exact hi.rdt
  · exact hi.room
  · exact hi.le
  · exact hi.pd
  · intro j hj
    by_cases hjn : j = n
    · subst hjn; simp [h1]
    · rw [upd_other _ _ _ _ hjn, upd_other _ _ _ _ hjn]; exact hi.tdh j hj
  · exact hi.tdt
  · intro j hj
    by_cases hjn : j = n
    · subst hjn; simp; omega
    · rw [upd_other _ _ _ _ hjn]; exact hi.st j hj
  · exact hi.tp
  · exact hi.heads
  · intro j hj
    split
    · by_cases hjn : j = n
      · subst hjn; simp [h1]
      · rw [upd_other _ _ _ _ hjn, upd_other _ _ _ _ hjn]; exact hi.reported j hj
    · exact hi.reported j hj
  · intro j hj
    split
    · by_cases hjn : j = n
      · subst hjn; simp; omega
      · rw [upd_other _ _ _ _ hjn]; exact hi.wv j hj
    · exact hi.wv j hj
  · intro j hj
    by_cases hjn : j = n
    · subst hjn; split <;> simp; omega
    · rw [upd_other _ _ _ _ hjn]
      split
      · rw [upd_other _ _ _ _ hjn]; exact hi.vs j hj
      · exact hi.vs j hj
  · exact hi.ew
  · exact hi.small
  · exact hi.rx
  · exact hi.free
  · intro j hj k hk
    refine hi.tx j hj k ?_
    by_cases hjn : j = n
    · subst hjn; simp at hk; omega
    · rwa [upd_other _ _ _ _ hjn] at hk
  · intro j hj
    by_cases hjn : j = n
    · subst hjn
      simp only [upd_same, List.length_append, List.length_singleton]
      have e := hi.sent j hj
      conv_lhs => rw [e]
      simp only [results] at hr1 ⊢
      rw [List.take_add_one, hr1, hr2, hr3, txMeta_len _ _ hlen]
      simp
    · rw [upd_other _ _ _ _ hjn]; exact hi.sent j hj
  · exact hi.nf
  · exact hi.pcOk

theorem inv_writeBack (hi : Inv outs h nf0 s g) (n : Nat) (hn : n < outs) :
    ∃ g', Inv outs h nf0 { s with heads := upd s.heads n (s.reported n) } g' ∧ g'.P = g.P ∧ g'.E = g.E := by
  have o := hi.order n hn
  have mono : ∀ j, g.W j ≤ upd g.W n (g.V n) j := by
    intro j
    by_cases hjn : j = n
    · subst hjn; simp; omega
    · rw [upd_other _ _ _ _ hjn]; exact Nat.le_refl _
  refine ⟨{ g with W := upd g.W n (g.V n) }, ?_, rfl, rfl⟩
  refine { hi with heads := ?_, wv := ?_, ew := ?_, pcOk := ?_ }
  · intro j hj
    by_cases hjn : j = n
    · subst hjn; simpa using hi.reported j hj
    · simp only [upd_other _ _ _ _ hjn]; exact hi.heads j hj
  · intro j hj
    by_cases hjn : j = n
    · subst hjn; simp
    · simp only [upd_other _ _ _ _ hjn]; exact hi.wv j hj
  · intro j hj; exact Nat.le_trans (hi.ew j hj) (mono j)
  · have key : ∀ n' e, Earliest outs g n' e → Earliest outs { g with W := upd g.W n (g.V n) } n' e := by
      rintro n' e ⟨a, b, c, m, d, e, f, i⟩
      exact ⟨a, b, c, m, d, e, f, fun j hj hj' => Nat.le_trans (i j hj hj') (mono j)⟩
    have := hi.pcOk
    unfold PcOk at this ⊢
    revert this
    dsimp only
    split <;> first
      | exact id
      | (rintro ⟨a, b, c⟩; exact ⟨a, b, key _ _ c⟩)
      | (rintro ⟨a, b, c, d⟩
         refine ⟨a, b, c, ?_⟩
         rcases d with d | ⟨d, e⟩
         · exact .inl d
         · exact .inr ⟨key _ _ d, e⟩)

end Cards

/-! ### The steps of the agent -/

theorem and_63 (x : Nat) : x &&& (recyclePeriod - 1) = x % 64 := Nat.and_two_pow_sub_one_eq_mod x 6
theorem and_255 (x : Nat) : x &&& (ringSize - 1) = x % 256 := Nat.and_two_pow_sub_one_eq_mod x 8

section Agent
variable {outs : Nat} {h : Handler σ D} {nf0 : σ} {s : St σ D} {g : Ghost}

/-- Changing only the place in the program. -/
theorem Inv.goto (hi : Inv outs h nf0 s g) (pc : Pc) (hc : current pc = current s.pc)
    (hp : PcOk outs h nf0 { s with pc := pc } g) : Inv outs h nf0 { s with pc := pc } g :=
  { hi with
    rx := fun k h1 h2 => hi.rx k (by rw [← hc]; exact h1) h2
    nf := by show s.nf = (handleAll h nf0 (s.received.take (g.P + current pc))).1; rw [hc]; exact hi.nf
    pcOk := hp }

/-- Whether the next packet was received can be seen in its descriptor. -/
theorem Inv.done_iff (hi : Inv outs h nf0 s g) (hc : current s.pc = 0) :
    done (s.ring 0 s.pd) = true ↔ g.P < s.received.length := by
  have := hi.pd
  rw [hi.pd]
  constructor
  · intro hd
    by_contra hge
    have := hi.free g.P (by omega) (by omega)
    rw [this] at hd
    cases hd
  · intro hlt
    obtain ⟨p, -, hd, -⟩ := hi.rx g.P (by omega) hlt
    exact hd

theorem inv_poll (hi : Inv outs h nf0 s g) (fc : Nat) (hpc : s.pc = .poll fc) :
    Inv outs h nf0 (agentStep outs h s) g := by
  have hc : current s.pc = 0 := by rw [hpc]; rfl
  have hp := hi.pcOk
  unfold PcOk at hp
  rw [hpc] at hp
  obtain ⟨hl, h8, hT⟩ := hp
  unfold agentStep
  rw [hpc]
  dsimp only
  split
  · split
    · rename_i h1 h2
      refine hi.goto _ (by rw [hc]; rfl) ⟨hl, h1, ?_⟩
      have hlt := (hi.done_iff hc).1 h2
      obtain ⟨p, a, -, b, -⟩ := hi.rx g.P (by omega) hlt
      exact ⟨p, a, by rw [hi.pd]; exact b⟩
    · split
      · exact hi.goto _ (by rw [hc]; rfl) ⟨hl, by omega, by intro j hj; omega⟩
      · rename_i h0
        exact hi.goto _ (by rw [hc]; rfl) ⟨hl, by omega, fun _ => hT (by omega)⟩
  · exact hi.goto _ (by rw [hc]; rfl) ⟨hl, by omega, by intro j hj; omega⟩

theorem inv_handle (hi : Inv outs h nf0 s g) (ho : 0 < outs) (fc len : Nat) (hpc : s.pc = .handle fc len) :
    Inv outs h nf0 (agentStep outs h s) g := by
  have hc : current s.pc = 0 := by rw [hpc]; rfl
  have hp := hi.pcOk
  unfold PcOk at hp
  rw [hpc] at hp
  obtain ⟨hl, h8, p, hp, hlen⟩ := hp
  have hlt := (List.getElem?_eq_some_iff.1 hp).1
  obtain ⟨p', a, -, -, hbuf⟩ := hi.rx g.P (by omega) hlt
  have : p' = p := by rw [hp] at a; exact (Option.some.inj a).symm
  subst this
  have hpd := hi.pd
  have hnf := hi.nf
  have o0 := hi.order 0 ho
  rw [hc, Nat.add_zero] at hnf
  have hl' : s.lengths = fun _ => 0 := funext hl
  have htake : s.received.take (g.P + 1) = s.received.take g.P ++ [p'] := by rw [List.take_add_one, hp]; rfl
  have hall := handleAll_append h nf0 (s.received.take g.P) p'
  rw [← htake] at hall
  have hres : (results h nf0 s)[g.P]? = some
      ((h s.nf (s.buf s.pd) len s.lengths).2.1, (h s.nf (s.buf s.pd) len s.lengths).2.2) := by
    have h1 : (handleAll h nf0 (s.received.take (g.P + 1))).2[g.P]? = (results h nf0 s)[g.P]? := by
      rw [handleAll_take, List.getElem?_take_of_lt (by omega)]
    rw [← h1, hall, hl', hnf, hpd, hbuf, hlen]
    have hlen' : (handleAll h nf0 (s.received.take g.P)).2.length = g.P := by
      rw [handleAll_length, List.length_take]; omega
    simp only
    rw [List.getElem?_append_right (by omega), hlen']
    simp
  unfold agentStep
  rw [hpc]
  dsimp only
  refine { hi with rx := ?_, tx := ?_, nf := ?_, pcOk := ?_ }
  · intro k h1 h2
    simp only [current] at h1
    obtain ⟨q, a, b, c, e⟩ := hi.rx k (by omega) h2
    refine ⟨q, a, b, c, ?_⟩
    show upd s.buf s.pd _ (k % 256) = q.1
    rw [upd_other _ _ _ _ (by simp only at h2; omega)]
    exact e
  · intro n hn k h1 h2
    obtain ⟨r, a, b, e⟩ := hi.tx n hn k h1 h2
    refine ⟨r, a, b, ?_⟩
    show upd s.buf s.pd _ (k % 256) = r.1
    have := hi.order n hn
    rw [upd_other _ _ _ _ (by simp only at h1; omega)]
    exact e
  · show (h s.nf (s.buf s.pd) len s.lengths).1 = (handleAll h nf0 (s.received.take (g.P + 1))).1
    rw [hall, hl', hnf, hpd, hbuf, hlen]
  · refine ⟨h8, Nat.zero_le _, hlt, ?_, _, hres, ?_, fun j hj => absurd hj (Nat.not_lt_zero _), ?_⟩
    · rw [and_63, hpd, Nat.mod_mod_of_dvd _ (by decide)]
      simp only [recyclePeriod, Nat.add_one_sub_one]
      rfl
    · show upd s.buf s.pd _ (g.P % 256) = _
      rw [← hpd, upd_same]
    · intro j
      by_cases hj : j < outs <;> simp [hj, hl]

theorem inv_writeDesc (hi : Inv outs h nf0 s g) (fc n : Nat) (rs : Bool)
    (hpc : s.pc = .writeDesc fc n rs) : Inv outs h nf0 (agentStep outs h s) g := by
  have hc : current s.pc = 1 := by rw [hpc]; rfl
  have hp := hi.pcOk
  unfold PcOk at hp
  rw [hpc] at hp
  obtain ⟨h8, hn, hlt, hrs, o, hr, hbuf, hring, hl⟩ := hp
  have hpd := hi.pd
  unfold agentStep
  rw [hpc]
  dsimp only
  split
  · rename_i hlt'
    have o0 := hi.order n hlt'
    have hln : s.lengths n = o.2 n := by rw [hl]; simp [hlt']
    have ring_eq : ∀ j k, k % 256 ≠ g.P % 256 →
        upd s.ring n (upd (s.ring n) s.pd (txMeta (s.lengths n) rs)) j (k % 256) = s.ring j (k % 256) := by
      intro j k hk
      by_cases hj : j = n
      · subst hj; rw [upd_same, upd_other _ _ _ _ (by omega)]
      · rw [upd_other _ _ _ _ hj]
    refine { hi with rx := ?_, free := ?_, tx := ?_, nf := ?_, pcOk := ?_ }
    · intro k h1 h2
      simp only [current] at h1 h2
      dsimp only
      rw [ring_eq 0 k (by omega)]
      exact hi.rx k (by omega) h2
    · intro k h1 h2
      simp only at h1
      dsimp only
      rw [ring_eq 0 k (by omega)]
      exact hi.free k h1 h2
    · intro j hj k h1 h2
      have := hi.order j hj
      simp only at h1
      dsimp only
      rw [ring_eq j k (by omega)]
      exact hi.tx j hj k h1 h2
    · have := hi.nf; rw [hc] at this; exact this
    · refine ⟨h8, hlt', hlt, hrs, o, hr, hbuf, ?_, ?_⟩
      · intro j hj hj'
        show upd s.ring n (upd (s.ring n) s.pd (txMeta (s.lengths n) rs)) j (g.P % 256) = _
        by_cases hjn : j = n
        · subst hjn; rw [upd_same, ← hpd, upd_same, hln]
        · rw [upd_other _ _ _ _ hjn]; exact hring j (by omega) hj'
      · intro j
        show upd s.lengths n 0 j = _
        by_cases hjn : j = n
        · subst hjn; rw [upd_same, if_neg (by omega)]
        · rw [upd_other _ _ _ _ hjn, hl]
          by_cases h1 : n ≤ j ∧ j < outs
          · rw [if_pos h1, if_pos (by omega)]
          · rw [if_neg h1, if_neg (by omega)]
  · rename_i hge
    have : n = outs := by omega
    subst this
    exact hi.goto _ (by rw [hc]; rfl) ⟨h8, hlt, hrs, o, hr, hbuf, hring, hl⟩

theorem inv_advance (hb : Bounded outs h) (ho : 0 < outs) (hi : Inv outs h nf0 s g) (fc : Nat) (rs : Bool)
    (hpc : s.pc = .advance fc rs) : Inv outs h nf0 (agentStep outs h s) { g with P := g.P + 1 } := by
  have hc : current s.pc = 1 := by rw [hpc]; rfl
  have hp := hi.pcOk
  unfold PcOk at hp
  rw [hpc] at hp
  obtain ⟨h8, hlt, hrs, o, hr, hbuf, hring, hl⟩ := hp
  have hpd := hi.pd
  have o0 := hi.order 0 ho
  have hcur : ∀ pd d, current (if rs = true then Pc.readHead fc 0 pd d else Pc.poll (fc + 1)) = 0 := by
    intro pd d; split <;> rfl
  have hl0 : ∀ j, s.lengths j = 0 := by
    intro j; rw [hl, if_neg (by omega)]
  unfold agentStep
  rw [hpc]
  dsimp only
  rw [and_255]
  refine { hi with le := hlt, pd := ?_, tp := ?_, rx := ?_, free := ?_, tx := ?_, nf := ?_, pcOk := ?_ }
  · show (s.pd + 1) % 256 = (g.P + 1) % 256
    omega
  · intro n hn; exact Nat.le_succ_of_le (hi.tp n hn)
  · intro k h1 h2
    simp only [hcur] at h1
    exact hi.rx k (by omega) h2
  · intro k h1 h2
    simp only at h1 h2
    by_cases hk : k = g.P + 256
    · subst hk
      show done (s.ring 0 ((g.P + 256) % 256)) = false
      rw [Nat.add_mod_right, hring 0 ho ho]
      exact txMeta_done _ _ (results_bounded hb nf0 _ hi.small _ _ hr 0 ho)
    · exact hi.free k h1 (by omega)
  · intro n hn k h1 h2
    simp only at h1 h2
    by_cases hk : k = g.P
    · subst hk
      exact ⟨o, hr, by rw [← hrs]; exact hring n hn hn, hbuf⟩
    · exact hi.tx n hn k h1 (by omega)
  · have := hi.nf
    rw [hc] at this
    show s.nf = (handleAll h nf0 (s.received.take (g.P + 1 + current _))).1
    rw [hcur]
    exact this
  · by_cases hrs' : rs = true
    · subst hrs'
      refine ⟨hl0, h8, Nat.zero_le _, .inl ⟨rfl, rfl, Nat.succ_pos _, ?_, ?_⟩⟩
      · simp at hrs
        show (g.P + 1) % 64 = 0
        omega
      · intro j hj; exact Nat.lt_succ_of_le (hi.tp j hj)
    · have : rs = false := by simpa using hrs'
      subst this
      exact ⟨hl0, h8, by intro h0; omega⟩

theorem inv_readHead (hi : Inv outs h nf0 s g) (ho : 0 < outs) (fc n e d : Nat) (hpc : s.pc = .readHead fc n e d) :
    Inv outs h nf0 (agentStep outs h s) g := by
  have hc : current s.pc = 0 := by rw [hpc]; rfl
  have hp := hi.pcOk
  unfold PcOk at hp
  rw [hpc] at hp
  obtain ⟨hl, h8, hn, hd⟩ := hp
  have hpd := hi.pd
  unfold agentStep
  rw [hpc]
  dsimp only
  split
  · rename_i hlt
    have hh := hi.heads n hlt
    have o := hi.order n hlt
    rcases hd with ⟨rfl, rfl, h1, h2, h3⟩ | ⟨⟨h1, h2, h3, m, rfl, h4, h5, h6⟩, rfl⟩
    · rw [if_pos (by omega)]
      have := h3 0 hlt
      refine hi.goto _ (by rw [hc]; rfl) ⟨hl, h8, hlt, .inr ⟨⟨h1, h2, h3, g.W 0, hh, by omega, by omega, ?_⟩, rfl⟩⟩
      intro j hj _
      have : j = 0 := by omega
      subst this; omega
    · have := h3 n hlt
      split
      · rename_i hle
        refine hi.goto _ (by rw [hc]; rfl) ⟨hl, h8, hlt, .inr ⟨⟨h1, h2, h3, g.W n, hh, by omega, by omega, ?_⟩, rfl⟩⟩
        intro j hj hj'
        have hWm : g.W n ≤ m := by omega
        by_cases hjn : j = n
        · subst hjn; omega
        · exact Nat.le_trans hWm (h6 j (by omega) hj')
      · rename_i hle
        refine hi.goto _ (by rw [hc]; rfl) ⟨hl, h8, hlt, .inr ⟨⟨h1, h2, h3, m, rfl, by omega, by omega, ?_⟩, rfl⟩⟩
        intro j hj hj'
        by_cases hjn : j = n
        · subst hjn; omega
        · exact h6 j (by omega) hj'
  · have : n = outs := by omega
    subst this
    rcases hd with ⟨rfl, -⟩ | ⟨hE, -⟩
    · omega
    · exact hi.goto _ (by rw [hc]; rfl) ⟨hl, h8, hE⟩

theorem inv_writeTail (hi : Inv outs h nf0 s g) (ho : 0 < outs) (fc e : Nat) (hpc : s.pc = .writeTail fc e) :
    ∃ m, g.E ≤ m ∧ m < g.P ∧ e = m % 256 ∧ g.P ≤ m + 255 ∧ 
      Inv outs h nf0 (agentStep outs h s) { g with E := m } := by
  have hc : current s.pc = 0 := by rw [hpc]; rfl
  have hp := hi.pcOk
  unfold PcOk at hp
  rw [hpc] at hp
  obtain ⟨hl, h8, h1, h2, h3, m, rfl, h4, h5, h6⟩ := hp
  have o0 := hi.order 0 ho
  have hroom := hi.room
  refine ⟨m, h4, h5, rfl, by omega, ?_⟩
  unfold agentStep
  rw [hpc]
  dsimp only
  rw [and_255]
  refine { hi with rdt := ?_, room := ?_, ew := ?_, rx := ?_, nf := ?_, pcOk := ?_ }
  · show (m % 256 + 2 ^ 32 - 1) % 2 ^ 32 % 256 = (m + 255) % 256
    omega
  · show s.received.length ≤ m + 255
    omega
  · intro n hn; exact h6 n hn hn
  · intro k h1 h2
    exact hi.rx k (by rw [hc]; exact h1) h2
  · have := hi.nf; rw [hc] at this; exact this
  · exact ⟨hl, h8, by intro h0; omega⟩

theorem inv_flush (hi : Inv outs h nf0 s g) (n : Nat) (hpc : s.pc = .flush n) :
    ∃ g', Inv outs h nf0 (agentStep outs h s) g' ∧ g'.P = g.P ∧ g'.E = g.E := by
  have hc : current s.pc = 0 := by rw [hpc]; rfl
  have hp := hi.pcOk
  unfold PcOk at hp
  rw [hpc] at hp
  obtain ⟨hl, hn, hT⟩ := hp
  have hpd := hi.pd
  unfold agentStep
  rw [hpc]
  dsimp only
  split
  · rename_i hlt
    refine ⟨{ g with T := upd g.T n g.P }, ?_, rfl, rfl⟩
    refine { hi with tdt := ?_, st := ?_, tp := ?_, rx := ?_, nf := ?_, pcOk := ?_ }
    · intro j hj
      show upd s.tdt n s.pd j = upd g.T n g.P j % 256
      by_cases hjn : j = n
      · subst hjn; simp [hpd]
      · rw [upd_other _ _ _ _ hjn, upd_other _ _ _ _ hjn]; exact hi.tdt j hj
    · intro j hj
      show (s.sent j).length ≤ upd g.T n g.P j
      have := hi.order j hj
      by_cases hjn : j = n
      · subst hjn; rw [upd_same]; omega
      · rw [upd_other _ _ _ _ hjn]; omega
    · intro j hj
      show upd g.T n g.P j ≤ g.P
      by_cases hjn : j = n
      · subst hjn; rw [upd_same]; exact Nat.le_refl _
      · rw [upd_other _ _ _ _ hjn]; exact hi.tp j hj
    · intro k h1 h2; exact hi.rx k (by rw [hc]; exact h1) h2
    · have := hi.nf; rw [hc] at this; exact this
    · refine ⟨hl, hlt, ?_⟩
      intro j hj
      show upd g.T n g.P j = g.P
      by_cases hjn : j = n
      · subst hjn; rw [upd_same]
      · rw [upd_other _ _ _ _ hjn]; exact hT j (by omega)
  · refine ⟨g, hi.goto _ (by rw [hc]; rfl) ⟨hl, by omega, ?_⟩, rfl, rfl⟩
    intro _ j hj
    exact hT j (by omega)

end Agent

/-- The invariant is kept by every step. -/
theorem inv_step {outs : Nat} {h : Handler σ D} {nf0 : σ} {s t : St σ D} {g : Ghost} (ho : 0 < outs)
    (hb : Bounded outs h) (hi : Inv outs h nf0 s g) (hs : Step outs h s t) : ∃ g', Inv outs h nf0 t g' := by
  cases hs with
  | agent =>
    cases hpc : s.pc with
    | poll fc => exact ⟨_, inv_poll hi fc hpc⟩
    | handle fc len => exact ⟨_, inv_handle hi ho fc len hpc⟩
    | writeDesc fc n rs => exact ⟨_, inv_writeDesc hi fc n rs hpc⟩
    | advance fc rs => exact ⟨_, inv_advance hb ho hi fc rs hpc⟩
    | readHead fc n e d => exact ⟨_, inv_readHead hi ho fc n e d hpc⟩
    | writeTail fc e =>
      obtain ⟨m, -, -, -, -, h⟩ := inv_writeTail hi ho fc e hpc
      exact ⟨_, h⟩
    | flush n =>
      obtain ⟨g', h, -⟩ := inv_flush hi n hpc
      exact ⟨g', h⟩
  | fill d hne => exact ⟨g, inv_fill hi ho d hne⟩
  | complete m hne hm => exact ⟨g, inv_complete hi ho m hne hm⟩
  | send n hn hne =>
    obtain ⟨g', h, -⟩ := inv_send hb hi n hn hne
    exact ⟨g', h⟩
  | writeBack n hn =>
    obtain ⟨g', h, -⟩ := inv_writeBack hi n hn
    exact ⟨g', h⟩

theorem inv_steps {outs : Nat} {h : Handler σ D} {nf0 : σ} {s t : St σ D} {g : Ghost} (ho : 0 < outs)
    (hb : Bounded outs h) (hi : Inv outs h nf0 s g) (hs : Steps outs h s t) : ∃ g', Inv outs h nf0 t g' := by
  induction hs with
  | refl => exact ⟨g, hi⟩
  | step _ h1 ih =>
    obtain ⟨g', h'⟩ := ih
    exact inv_step ho hb h' h1

end Verif.Ixgbe
