/- Property C60: the runtime on DPDK sends what the network function asked and keeps its buffers. -/
import Verif.Env.Dpdk
import Mathlib.Data.List.Perm.Basic
import Mathlib.Data.List.Nodup
import Mathlib.Data.List.Range

set_option autoImplicit false

namespace Verif.Props.DpdkSpec
open Verif.Dpdk

/-- Which devices a call asks for: the one given, or all others that are not disabled. -/
def targets (devices input : Nat) : Call → List Nat
  | .transmit d _ => [d]
  | .flood _ => (List.range devices).filter fun d => d ≠ input
  | .floodExcept l _ => (List.range devices).filter fun d => d ≠ input ∧ l[d]? = some false

/-- Whether a call asks for the addresses to be updated. -/
def updates : Call → Bool
  | .transmit _ u => u
  | .flood u => u
  | .floodExcept _ u => u

/-- A call that follows tx.h: the device exists, and there is an entry for each device. -/
def Legal (devices : Nat) : Call → Prop
  | .transmit d _ => d < devices
  | .flood _ => True
  | .floodExcept l _ => l.length = devices

variable {σ D : Type}

/-- Network functions that call tx.h at most once for each packet. -/
def AtMostOnce (c : Config σ D) : Prop :=
  ∀ (f : σ) (x : D) (time input : Nat), input < c.devices →
    (c.handler f x time input).2.2 = [] ∨ ∃ k, (c.handler f x time input).2.2 = [k] ∧ Legal c.devices k

/-- The devices a packet is to be sent on. -/
def wantedOn (c : Config σ D) (input : Nat) (cs : List Call) : List Nat := cs.flatMap (targets c.devices input)

/-- Its contents: what the network function left, with the addresses of the device if asked. -/
def finalData (c : Config σ D) (input : Nat) (x : D) : List Call → D
  | [] => x
  | k :: ks => finalData c input (if updates k then (targets c.devices input k).foldl (fun y d => c.update d y) x else x) ks

/-- The network function on a batch, one packet after the other: its state, and for each
packet the contents and the devices. No buffers are involved. -/
def batchOf (c : Config σ D) (input : Nat) : σ → List (Rx D) → σ × List (D × List Nat)
  | f, [] => (f, [])
  | f, r :: rs =>
    let h := c.handler f r.data r.time input
    let t := batchOf c input h.1 rs
    (t.1, (finalData c input h.2.1 h.2.2, wantedOn c input h.2.2) :: t.2)

/-- A run of the runtime with `n` buffers; `k` counts the packets that were to be sent nowhere. -/
inductive Runs (c : Config σ D) (n : Nat) (f : σ) (b : Nat → D) : Nat → St σ D → Prop
  | start : Runs c n f b 0 (start f b n)
  | iterate {k : Nat} {s t : St σ D} {input : Nat} {rx : List (Rx D)} {accept : Nat → Nat} : Runs c n f b k s →
      input < c.devices → Receivable c s rx → iteration c input rx accept s = some t →
      Runs c n f b (k + (batchOf c input s.nf rx).2.countP fun o => o.2.isEmpty) t
  | complete {k : Nat} {s : St σ D} {l l' : List Nat} {m : Nat} : Runs c n f b k s → s.card = l ++ m :: l' →
      Runs c n f b k { s with card := l ++ l', pool := m :: s.pool }

end Verif.Props.DpdkSpec

namespace Verif.Props
open Verif.Dpdk DpdkSpec

variable {σ D : Type}

/-- What one legal call does, if there is space. -/
theorem dpdk_call (c : Config σ D) (h2 : c.devices ≤ 2) (m input : Nat) (s : St σ D) (k : Call) (hk : Legal c.devices k)
    (hin : input < c.devices) (hs : ∀ d, d < c.devices → (s.toTx d).length < c.batch) :
    ∃ t, call c m input s k = some t ∧ t.nf = s.nf ∧ t.pool = s.pool ∧ t.card = s.card ∧ t.sent = s.sent ∧
      (∀ d, t.toTx d = if d ∈ targets c.devices input k then s.toTx d ++ [m] else s.toTx d) ∧
      (∀ x, x ≠ m → t.buf x = s.buf x) ∧
      t.buf m = (if updates k then (targets c.devices input k).foldl (fun y d => c.update d y) (s.buf m) else s.buf m) := by
  have henq : ∀ d u, d < c.devices → enqueue c s m d u = some { s with
      buf := if u then upd s.buf m (c.update d (s.buf m)) else s.buf
      toTx := upd s.toTx d (s.toTx d ++ [m]) } := by
    intro d u hd
    unfold enqueue
    rw [if_pos (show d < maxDevices by show d < 2; omega), if_pos (hs d hd)]
  have hdone : ∀ d u (k : Call), d < c.devices → targets c.devices input k = [d] → updates k = u →
      ∃ t, enqueue c s m d u = some t ∧ t.nf = s.nf ∧ t.pool = s.pool ∧ t.card = s.card ∧ t.sent = s.sent ∧
      (∀ d, t.toTx d = if d ∈ targets c.devices input k then s.toTx d ++ [m] else s.toTx d) ∧
      (∀ x, x ≠ m → t.buf x = s.buf x) ∧
      t.buf m = (if updates k then (targets c.devices input k).foldl (fun y d => c.update d y) (s.buf m) else s.buf m) := by
    intro d u k hd ht hu
    refine ⟨_, henq d u hd, rfl, rfl, rfl, rfl, ?_, ?_, ?_⟩
    · intro e
      simp only [ht, List.mem_singleton, upd]
      split
      · rename_i h; rw [h]
      · rfl
    · intro x hx
      cases u <;> simp [upd, hx]
    · rw [ht, hu]
      cases u <;> simp [upd]
  have hnone : ∀ k : Call, targets c.devices input k = [] → 
      ∃ t, some s = some t ∧ t.nf = s.nf ∧ t.pool = s.pool ∧ t.card = s.card ∧ t.sent = s.sent ∧
      (∀ d, t.toTx d = if d ∈ targets c.devices input k then s.toTx d ++ [m] else s.toTx d) ∧
      (∀ x, x ≠ m → t.buf x = s.buf x) ∧
      t.buf m = (if updates k then (targets c.devices input k).foldl (fun y d => c.update d y) (s.buf m) else s.buf m) := by
    intro k ht
    refine ⟨s, rfl, rfl, rfl, rfl, rfl, ?_, fun _ _ => rfl, ?_⟩
    · intro e; simp [ht]
    · simp [ht]
  cases k with
  | transmit d u => exact hdone d u (.transmit d u) hk rfl rfl
  | flood u =>
    have hd : c.devices = 1 ∨ c.devices = 2 := by omega
    rcases hd with hd | hd
    · have : input = 0 := by omega
      subst this
      have := hnone (.flood u) (by simp [targets, hd, List.range_succ])
      simpa [call, hd, floodLoop] using this
    · have : input = 0 ∨ input = 1 := by omega
      rcases this with rfl | rfl
      · have := hdone 1 u (.flood u) (by omega) (by simp [targets, hd, List.range_succ]) rfl
        simpa [call, hd, floodLoop] using this
      · have := hdone 0 u (.flood u) (by omega) (by simp [targets, hd, List.range_succ]) rfl
        simpa [call, hd, floodLoop, Option.bind_some] using this
  | floodExcept l u =>
    have hl : l.length = c.devices := hk
    have hd : c.devices = 1 ∨ c.devices = 2 := by omega
    rcases hd with hd | hd
    · have : input = 0 := by omega
      subst this
      have := hnone (.floodExcept l u) (by simp [targets, hd, List.range_succ])
      simpa [call, hd, floodLoop] using this
    · rw [hd] at hl
      obtain ⟨a, b, rfl⟩ := List.length_eq_two.1 hl
      have : input = 0 ∨ input = 1 := by omega
      rcases this with rfl | rfl
      · cases b
        · have := hdone 1 u (.floodExcept [a, false] u) (by omega) (by simp [targets, hd, List.range_succ]) rfl
          simpa [call, hd, floodLoop] using this
        · have := hnone (.floodExcept [a, true] u) (by simp [targets, hd, List.range_succ])
          simpa [call, hd, floodLoop] using this
      · cases a
        · have := hdone 0 u (.floodExcept [false, b] u) (by omega) (by simp [targets, hd, List.range_succ]) rfl
          simpa [call, hd, floodLoop, Option.bind_some] using this
        · have := hnone (.floodExcept [true, b] u) (by simp [targets, hd, List.range_succ])
          simpa [call, hd, floodLoop] using this

/-- With two devices at most, a legal call asks for one device at most. -/
theorem dpdk_targets (devices input : Nat) (h2 : devices ≤ 2) (hin : input < devices) (k : Call) (hk : Legal devices k) :
    targets devices input k = [] ∨ ∃ d < devices, targets devices input k = [d] := by
  have hd : devices = 1 ∨ devices = 2 := by omega
  cases k with
  | transmit d u => exact Or.inr ⟨d, hk, rfl⟩
  | flood u =>
    rcases hd with rfl | rfl
    · have : input = 0 := by omega
      subst this; left; simp [targets, List.range_succ]
    · have : input = 0 ∨ input = 1 := by omega
      right
      rcases this with rfl | rfl
      · exact ⟨1, by omega, by simp [targets, List.range_succ]⟩
      · exact ⟨0, by omega, by simp [targets, List.range_succ]⟩
  | floodExcept l u =>
    have hl : l.length = devices := hk
    rcases hd with rfl | rfl
    · have : input = 0 := by omega
      subst this; left; simp [targets, List.range_succ]
    · obtain ⟨a, b, rfl⟩ := List.length_eq_two.1 hl
      have : input = 0 ∨ input = 1 := by omega
      rcases this with rfl | rfl
      · cases b
        · exact Or.inr ⟨1, by omega, by simp [targets, List.range_succ]⟩
        · left; simp [targets, List.range_succ]
      · cases a
        · exact Or.inr ⟨0, by omega, by simp [targets, List.range_succ]⟩
        · left; simp [targets, List.range_succ]

/-- What handling one packet does. -/
theorem dpdk_handleOne (c : Config σ D) (h2 : c.devices ≤ 2) (h1 : AtMostOnce c) (m input time : Nat) (s : St σ D)
    (hin : input < c.devices) (hs : ∀ d, d < c.devices → (s.toTx d).length < c.batch) :
    let h := c.handler s.nf (s.buf m) time input
    ∃ t, handleOne c input m time s = some t ∧ t.nf = h.1 ∧ t.pool = s.pool ∧ t.card = s.card ∧ t.sent = s.sent ∧
      (∀ d, t.toTx d = if d ∈ wantedOn c input h.2.2 then s.toTx d ++ [m] else s.toTx d) ∧
      (∀ x, x ≠ m → t.buf x = s.buf x) ∧ t.buf m = finalData c input h.2.1 h.2.2 := by
  intro h
  rcases h1 s.nf (s.buf m) time input hin with h0 | ⟨k, h0, hk⟩
  · refine ⟨{ s with nf := h.1, buf := upd s.buf m h.2.1 }, ?_, rfl, rfl, rfl, rfl, ?_, ?_, ?_⟩
    · simp only [handleOne, h0]; rfl
    · intro d; rw [h0]; rfl
    · intro x hx; simp [upd, hx]
    · rw [h0]; simp [upd, finalData]
  · obtain ⟨t, ht, h3, h4, h5, h6, h7, h8, h9⟩ := dpdk_call c h2 m input { s with nf := h.1, buf := upd s.buf m h.2.1 } k hk hin hs
    refine ⟨t, ?_, h3, h4, h5, h6, ?_, ?_, ?_⟩
    · simp only [handleOne, h0, calls]
      rw [show call c m input { s with nf := (c.handler s.nf (s.buf m) time input).1, buf := upd s.buf m (c.handler s.nf (s.buf m) time input).2.1 } k = some t from ht]
      rfl
    · intro d; rw [h7 d, h0]; simp [wantedOn]
    · intro x hx; rw [h8 x hx]; simp [upd, hx]
    · rw [h9, h0]; simp [upd, finalData, h]

/-- What handling a batch does. -/
theorem dpdk_handleAll (c : Config σ D) (h2 : c.devices ≤ 2) (h1 : AtMostOnce c) (input : Nat) (hin : input < c.devices) :
    ∀ (rx : List (Rx D)) (s : St σ D), (∀ d, (s.toTx d).length + rx.length ≤ c.batch) → (rx.map Rx.m).Nodup →
      (∀ r ∈ rx, s.buf r.m = r.data) →
      ∃ t, handleAll c input rx s = some t ∧ t.nf = (batchOf c input s.nf rx).1 ∧ t.pool = s.pool ∧ t.card = s.card ∧ t.sent = s.sent ∧
        (∀ x, x ∉ rx.map Rx.m → t.buf x = s.buf x) ∧
        rx.map (fun r => t.buf r.m) = (batchOf c input s.nf rx).2.map Prod.fst ∧
        (∀ d, t.toTx d = s.toTx d ++ ((rx.zip (batchOf c input s.nf rx).2).filter fun o => d ∈ o.2.2).map fun o => o.1.m)
  | [], s, _, _, _ => ⟨s, rfl, rfl, rfl, rfl, rfl, fun _ _ => rfl, rfl, fun d => by simp [batchOf]⟩
  | r :: rs, s, hlen, hnd, hbuf => by
    have hb := hbuf r (by simp)
    obtain ⟨t, ht, a1, a2, a3, a4, a5, a6, a7⟩ := dpdk_handleOne c h2 h1 r.m input r.time s hin (fun d _ => by
      have := hlen d; simp only [List.length_cons] at this; omega)
    rw [hb] at a1 a5 a7
    have hnd' := List.nodup_cons.1 (by simpa using hnd : (r.m :: rs.map Rx.m).Nodup)
    obtain ⟨u, hu, b1, b2, b3, b4, b5, b6, b7⟩ := dpdk_handleAll c h2 h1 input hin rs t (fun d => by
        have := hlen d
        simp only [List.length_cons] at this
        rw [a5 d]
        split
        · simp only [List.length_append, List.length_cons, List.length_nil]; omega
        · omega) hnd'.2 (fun r' hr' => by
        rw [a6 r'.m (fun h => hnd'.1 (h ▸ List.mem_map_of_mem hr'))]
        exact hbuf r' (List.mem_cons_of_mem _ hr'))
    rw [a1] at b1 b6 b7
    refine ⟨u, ?_, ?_, b2.trans a2, b3.trans a3, b4.trans a4, ?_, ?_, ?_⟩
    · simp only [handleAll, ht, Option.bind_eq_bind, Option.bind_some, hu]
    · rw [b1]; rfl
    · intro x hx
      simp only [List.map_cons, List.mem_cons, not_or] at hx
      rw [b5 x hx.2, a6 x hx.1]
    · simp only [List.map_cons, batchOf, b6, b5 r.m hnd'.1, a7]
    · intro d
      rw [b7 d, a5 d]
      simp only [batchOf, List.zip_cons_cons, List.filter_cons, decide_eq_true_eq]
      split <;> simp

theorem dpdk_fill (rx : List (Rx D)) : ∀ b : Nat → D, (rx.map Rx.m).Nodup →
    (∀ r ∈ rx, fill b rx r.m = r.data) ∧ ∀ x, x ∉ rx.map Rx.m → fill b rx x = b x := by
  induction rx with
  | nil => intro b _; exact ⟨by simp, fun _ _ => rfl⟩
  | cons r rs ih =>
    intro b hnd
    have hnd' := List.nodup_cons.1 (by simpa using hnd : (r.m :: rs.map Rx.m).Nodup)
    obtain ⟨i1, i2⟩ := ih (upd b r.m r.data) hnd'.2
    refine ⟨?_, ?_⟩
    · intro r' hr'
      rcases List.mem_cons.1 hr' with rfl | hr'
      · simp only [fill]; rw [i2 _ hnd'.1]; simp [upd]
      · exact i1 r' hr'
    · intro x hx
      simp only [List.map_cons, List.mem_cons, not_or] at hx
      simp only [fill]; rw [i2 x hx.2]; simp [upd, hx.1]

theorem dpdk_batch_length (c : Config σ D) (input : Nat) : ∀ (rx : List (Rx D)) (f : σ), (batchOf c input f rx).2.length = rx.length
  | [], _ => rfl
  | r :: rs, f => by simp [batchOf, dpdk_batch_length c input rs]

theorem dpdk_batch_targets (c : Config σ D) (h2 : c.devices ≤ 2) (h1 : AtMostOnce c) (input : Nat) (hin : input < c.devices) :
    ∀ (rx : List (Rx D)) (f : σ), ∀ o ∈ (batchOf c input f rx).2, o.2 = [] ∨ ∃ d < c.devices, o.2 = [d]
  | [], _, o, ho => by simp [batchOf] at ho
  | r :: rs, f, o, ho => by
    simp only [batchOf, List.mem_cons] at ho
    rcases ho with rfl | ho
    · rcases h1 f r.data r.time input hin with h | ⟨k, h, hk⟩
      · left; simp [h, wantedOn]
      · simpa [h, wantedOn] using dpdk_targets c.devices input h2 hin k hk
    · exact dpdk_batch_targets c h2 h1 input hin rs _ o ho

theorem dpdk_sendAll (accept : Nat → Nat) : ∀ (k n : Nat) (s : St σ D),
    (sendAll accept k n s).nf = s.nf ∧ (sendAll accept k n s).buf = s.buf ∧
    (∀ d, (sendAll accept k n s).toTx d = if n ≤ d ∧ d < n + k then [] else s.toTx d) ∧
    (∀ d, (sendAll accept k n s).sent d =
      if n ≤ d ∧ d < n + k then s.sent d ++ ((s.toTx d).take (accept d)).map s.buf else s.sent d) ∧
    ((sendAll accept k n s).pool ++ (sendAll accept k n s).card).Perm
      (s.pool ++ s.card ++ (List.range' n k).flatMap s.toTx)
  | 0, n, s => ⟨rfl, rfl, fun d => by rw [if_neg (by omega)]; rfl, fun d => by rw [if_neg (by omega)]; rfl, by simp [sendAll]⟩
  | k + 1, n, s => by
    obtain ⟨h1, h2, h3, h4, h5⟩ := dpdk_sendAll accept k (n + 1) (sendOne n (accept n) s)
    refine ⟨h1, h2, ?_, ?_, ?_⟩
    · intro d
      simp only [sendAll]
      rw [h3 d]
      by_cases hd : d = n
      · subst hd
        rw [if_neg (by omega), if_pos (by omega)]
        simp [sendOne, upd]
      · by_cases h : n + 1 ≤ d ∧ d < n + 1 + k
        · rw [if_pos h, if_pos (by omega)]
        · rw [if_neg h, if_neg (by omega)]
          simp [sendOne, upd, hd]
    · intro d
      simp only [sendAll]
      rw [h4 d]
      by_cases hd : d = n
      · subst hd
        rw [if_neg (by omega), if_pos (by omega)]
        simp [sendOne, upd]
      · by_cases h : n + 1 ≤ d ∧ d < n + 1 + k
        · rw [if_pos h, if_pos (by omega)]
          simp [sendOne, upd, hd]
        · rw [if_neg h, if_neg (by omega)]
          simp [sendOne, upd, hd]
    · simp only [sendAll]
      refine h5.trans ?_
      have hf : (List.range' (n + 1) k).flatMap (sendOne n (accept n) s).toTx = (List.range' (n + 1) k).flatMap s.toTx := by
        apply List.flatMap_congr
        intro d hd
        have : n + 1 ≤ d := (List.mem_range'_1.1 hd).1
        simp [sendOne, upd, show ¬ d = n by omega]
      rw [hf, List.range'_succ, List.flatMap_cons, ← List.append_assoc]
      apply List.Perm.append_right
      simp only [sendOne]
      rw [List.perm_iff_count]
      intro x
      have := congrArg (List.count x) (List.take_append_drop (accept n) (s.toTx n))
      simp only [List.count_append] at this ⊢
      omega

/-- The zip of buffers and outcomes, as contents. -/
theorem dpdk_zip_map {α : Type} (g : Rx D → D) (p : α → Bool) : ∀ (rx : List (Rx D)) (os : List (D × α)),
    rx.map g = os.map Prod.fst → ((rx.zip os).filter fun o => p o.2.2).map (fun o => g o.1) = (os.filter fun o => p o.2).map Prod.fst
  | [], [], _ => rfl
  | r :: rs, o :: os, h => by
    simp only [List.map_cons, List.cons.injEq] at h
    simp only [List.zip_cons_cons, List.filter_cons]
    split
    · simp only [List.map_cons, dpdk_zip_map g p rs os h.2, h.1]
    · exact dpdk_zip_map g p rs os h.2

/-- One iteration of the main loop. -/
theorem dpdk_iteration (c : Config σ D) (h2 : c.devices ≤ 2) (h1 : AtMostOnce c) (input : Nat) (hin : input < c.devices)
    (s : St σ D) (hs : ∀ d, s.toTx d = []) (rx : List (Rx D)) (hrx : Receivable c s rx) (accept : Nat → Nat) :
    ∃ t, iteration c input rx accept s = some t ∧ t.nf = (batchOf c input s.nf rx).1 ∧ (∀ d, t.toTx d = []) ∧
      (∀ d < c.devices, t.sent d = s.sent d ++
        (((batchOf c input s.nf rx).2.filter fun o => d ∈ o.2).map Prod.fst).take (accept d)) ∧
      (t.pool ++ t.card).Perm ((s.pool.filter fun m => !(rx.map Rx.m).contains m) ++ s.card ++
        ((rx.zip (batchOf c input s.nf rx).2).filter fun o => !o.2.2.isEmpty).map fun o => o.1.m) := by
  obtain ⟨hlen, hnd, hmem⟩ := hrx
  obtain ⟨u, hu, b1, b2, b3, b4, b5, b6, b7⟩ := dpdk_handleAll c h2 h1 input hin rx
    { s with buf := fill s.buf rx, pool := s.pool.filter fun m => !(rx.map Rx.m).contains m }
    (fun d => by simp only [hs d, List.length_nil]; omega) hnd (dpdk_fill rx s.buf hnd).1
  simp only [hs, List.nil_append] at b7
  obtain ⟨c1, c2, c3, c4, c5⟩ := dpdk_sendAll accept c.devices 0 u
  refine ⟨sendAll accept c.devices 0 u, ?_, c1.trans b1, ?_, ?_, ?_⟩
  · simp only [iteration, hu, Option.bind_eq_bind, Option.bind_some]
  · intro d
    rw [c3 d]
    split
    · rfl
    · rename_i hd
      rw [b7 d]
      have : ((rx.zip (batchOf c input s.nf rx).2).filter fun o => decide (d ∈ o.2.2)) = [] := by
        rw [List.filter_eq_nil_iff]
        intro o ho hcontra
        have := dpdk_batch_targets c h2 h1 input hin rx s.nf o.2 (List.of_mem_zip ho).2
        rcases this with h | ⟨e, he, h⟩
        · simp [h] at hcontra
        · simp only [h, List.mem_singleton, decide_eq_true_eq] at hcontra; omega
      rw [this]; rfl
  · intro d hd
    rw [c4 d, if_pos (by omega), b4, b7 d, ← List.map_take]
    congr 1
    rw [← dpdk_zip_map (fun r => u.buf r.m) (fun l => decide (d ∈ l)) rx _ b6, ← List.map_take, List.map_map]
    rfl
  · refine c5.trans ?_
    rw [b2, b3]
    apply List.Perm.append_left
    rw [show u.toTx = _ from funext b7]
    have htg : ∀ o ∈ rx.zip (batchOf c input s.nf rx).2, o.2.2 = [] ∨ ∃ d < c.devices, o.2.2 = [d] := fun o ho =>
      dpdk_batch_targets c h2 h1 input hin rx s.nf o.2 (List.of_mem_zip ho).2
    generalize rx.zip (batchOf c input s.nf rx).2 = z at htg
    have hdev : c.devices = 1 ∨ c.devices = 2 := by omega
    rw [List.perm_iff_count]
    intro x
    induction z with
    | nil => rcases hdev with h | h <;> simp [h, List.range'_succ]
    | cons o z ih =>
      have ih := ih fun o ho => htg o (List.mem_cons_of_mem _ ho)
      rcases htg o (by simp) with h | ⟨e, he, h⟩
      · simpa [List.filter_cons, h] using ih
      · rcases hdev with hd | hd
        · have : e = 0 := by omega
          subst this
          simp only [hd, List.range'_succ, List.range'_zero, List.flatMap_cons, List.flatMap_nil, List.append_nil] at ih
          simp [hd, List.range'_succ, List.filter_cons, h, List.count_cons, ih]
        · have : e = 0 ∨ e = 1 := by omega
          simp only [hd, List.range'_succ, List.range'_zero, List.flatMap_cons, List.flatMap_nil, List.append_nil, List.count_append, Nat.zero_add] at ih
          rcases this with rfl | rfl
          · simp [hd, List.range'_succ, List.filter_cons, h, List.count_cons]
            omega
          · simp [hd, List.range'_succ, List.filter_cons, h, List.count_cons]
            omega

/-- The runtime sends what the network function asked for: in an iteration each card is given
exactly the packets that were to be sent on its device, in order, with the contents that the
network function left and, if asked, the addresses of the device; if the card does not take
all of them, those at the end are lost. All array accesses are in bounds.
Missing: network functions that call tx.h more than once for a packet, for which it is
false (C60_two_calls_overflow, C60_two_calls_shared). -/
theorem C60_sends_partial (c : Config σ D) (h2 : c.devices ≤ 2) (h1 : AtMostOnce c) (input : Nat) (hin : input < c.devices)
    (s : St σ D) (hs : ∀ d, s.toTx d = []) (rx : List (Rx D)) (hrx : Receivable c s rx) (accept : Nat → Nat) :
    ∃ t, iteration c input rx accept s = some t ∧ t.nf = (batchOf c input s.nf rx).1 ∧ (∀ d, t.toTx d = []) ∧
      (∀ d < c.devices, t.sent d = s.sent d ++
        (((batchOf c input s.nf rx).2.filter fun o => d ∈ o.2).map Prod.fst).take (accept d)) := by
  obtain ⟨t, h, h3, h4, h5, _⟩ := dpdk_iteration c h2 h1 input hin s hs rx hrx accept
  exact ⟨t, h, h3, h4, h5⟩

theorem dpdk_filter_perm (pool : List Nat) (hp : pool.Nodup) (l : List Nat) (hl : l.Nodup) (h : ∀ m ∈ l, m ∈ pool) :
    pool.Perm ((pool.filter fun m => !l.contains m) ++ l) := by
  rw [List.perm_iff_count]
  intro x
  rw [List.count_append, hp.count, hl.count]
  by_cases hx : x ∈ l
  · have : x ∉ pool.filter fun m => !l.contains m := by simp [hx]
    rw [List.count_eq_zero_of_not_mem this]
    simp [hx, h x hx]
  · rw [(hp.filter _).count]
    simp [hx]

theorem dpdk_zip_count {α : Type} (p : α → Bool) (rx : List (Rx D)) (os : List (D × α)) (h : os.length = rx.length) :
    ((rx.zip os).filter fun o => !p o.2.2).length + os.countP (fun o => p o.2) = rx.length := by
  induction rx generalizing os with
  | nil => cases os with
    | nil => rfl
    | cons o os => simp at h
  | cons r rs ih =>
    cases os with
    | nil => simp at h
    | cons o os =>
      have := ih os (by simpa using h)
      simp only [List.zip_cons_cons, List.filter_cons, List.countP_cons, List.length_cons]
      cases p o.2 <;> simp <;> omega

/-- What is true between iterations. -/
theorem dpdk_inv (c : Config σ D) (h2 : c.devices ≤ 2) (h1 : AtMostOnce c) (n : Nat) (f : σ) (b : Nat → D) (k : Nat) (s : St σ D)
    (h : Runs c n f b k s) : (∀ d, s.toTx d = []) ∧ (s.pool ++ s.card).Nodup ∧ (∀ m ∈ s.pool ++ s.card, m < n) ∧
      s.pool.length + s.card.length + k = n := by
  induction h with
  | start => exact ⟨fun _ => rfl, by simpa [start] using List.nodup_range, by simp [start], by simp [start]⟩
  | @iterate k s t input rx accept hr hin hrx hit ih =>
    obtain ⟨i1, i2, i3, i4⟩ := ih
    obtain ⟨t', ht, _, e2, _, e4⟩ := dpdk_iteration c h2 h1 input hin s i1 rx hrx accept
    rw [hit] at ht
    cases ht
    obtain ⟨hl, hnd, hmem⟩ := hrx
    have hpp := dpdk_filter_perm s.pool (List.nodup_append.1 i2).1 (rx.map Rx.m) hnd
      (fun m hm => by obtain ⟨r, hr, rfl⟩ := List.mem_map.1 hm; exact hmem r hr)
    have hsub : (((rx.zip (batchOf c input s.nf rx).2).filter fun o => !o.2.2.isEmpty).map fun o => o.1.m).Sublist (rx.map Rx.m) := by
      refine ((List.filter_sublist (l := rx.zip (batchOf c input s.nf rx).2)).map (fun o => o.1.m)).trans ?_
      rw [show (fun o : Rx D × D × List Nat => o.1.m) = Rx.m ∘ Prod.fst from rfl, ← List.map_map, List.map_fst_zip]
      rw [dpdk_batch_length]
    have hall : (s.pool ++ s.card).Perm ((s.pool.filter fun m => !(rx.map Rx.m).contains m) ++ s.card ++ rx.map Rx.m) := by
      refine (List.Perm.append_right _ hpp).trans ?_
      rw [List.append_assoc, List.append_assoc]
      exact List.Perm.append_left _ List.perm_append_comm
    have hnd2 := hall.nodup_iff.1 i2
    have hsub2 := (List.Sublist.refl ((s.pool.filter fun m => !(rx.map Rx.m).contains m) ++ s.card)).append hsub
    refine ⟨e2, e4.nodup_iff.2 (hnd2.sublist hsub2), ?_, ?_⟩
    · intro m hm
      exact i3 m (hall.mem_iff.2 (hsub2.subset (e4.mem_iff.1 hm)))
    · have l1 := e4.length_eq
      have l2 := hall.length_eq
      have l3 := dpdk_zip_count (fun l : List Nat => l.isEmpty) rx (batchOf c input s.nf rx).2 (dpdk_batch_length c input rx s.nf)
      simp only [List.length_append, List.length_map] at l1 l2
      omega
  | @complete k s l l' m hr hc ih =>
    obtain ⟨i1, i2, i3, i4⟩ := ih
    have hp : (m :: s.pool ++ (l ++ l')).Perm (s.pool ++ s.card) := by
      rw [hc, List.perm_iff_count]
      intro x
      simp only [List.count_append, List.count_cons]
      omega
    refine ⟨i1, hp.nodup_iff.2 i2, fun x hx => i3 x (hp.mem_iff.1 hx), ?_⟩
    have := hp.length_eq
    simp only [List.length_append, List.length_cons] at this ⊢
    omega

/-- After any number of packets, each buffer is in at most one place, and the buffers that are
in no place any more are exactly as many as packets were to be sent nowhere: dropping a
packet loses its buffer, nothing else does. -/
theorem C60_buffers_partial (c : Config σ D) (h2 : c.devices ≤ 2) (h1 : AtMostOnce c) (n : Nat) (f : σ) (b : Nat → D) (k : Nat)
    (s : St σ D) (h : Runs c n f b k s) :
    (s.pool ++ s.card).Nodup ∧ (∀ m ∈ s.pool ++ s.card, m < n) ∧ s.pool.length + s.card.length + k = n :=
  (dpdk_inv c h2 h1 n f b k s h).2

theorem dpdk_runs (c : Config σ D) (n : Nat) (f : σ) (b : Nat → D) (s : St σ D) (h : Steps c (start f b n) s) : ∃ k, Runs c n f b k s := by
  induction h with
  | refl => exact ⟨0, .start⟩
  | step _ h ih =>
    obtain ⟨k, hk⟩ := ih
    cases h with
    | iterate _ input rx accept hin hrx hit => exact ⟨_, .iterate hk hin hrx hit⟩
    | complete l l' m hc => exact ⟨_, .complete hk hc⟩

/-- No buffer is ever lost if the network function sends every packet to some device.
Missing: network functions that drop packets, for which it is false (C60_drops_stop). -/
theorem C60_kept_partial (c : Config σ D) (h2 : c.devices ≤ 2) (h1 : AtMostOnce c)
    (hsend : ∀ (g : σ) (x : D) (time input : Nat), input < c.devices → wantedOn c input (c.handler g x time input).2.2 ≠ [])
    (n : Nat) (f : σ) (b : Nat → D) (s : St σ D) (h : Steps c (start f b n) s) : (s.pool ++ s.card).Perm (List.range n) := by
  obtain ⟨k, hr⟩ := dpdk_runs c n f b s h
  have hk : k = 0 := by
    clear h
    induction hr with
    | start => rfl
    | @iterate k s t input rx accept hr hin hrx hit ih =>
      rw [ih, Nat.zero_add, List.countP_eq_zero]
      have : ∀ (rx : List (Rx D)) (g : σ), ∀ o ∈ (batchOf c input g rx).2, ¬ o.2.isEmpty = true := by
        intro rx
        induction rx with
        | nil => intro g o ho; simp [batchOf] at ho
        | cons r rs ih =>
          intro g o ho
          simp only [batchOf, List.mem_cons] at ho
          rcases ho with rfl | ho
          · simpa using hsend g r.data r.time input hin
          · exact ih _ o ho
      exact this rx s.nf
    | complete _ _ ih => exact ih
  obtain ⟨i1, i2, i3⟩ := C60_buffers_partial c h2 h1 n f b k s hr
  subst hk
  have hsub : (s.pool ++ s.card) ⊆ List.range n := fun m hm => List.mem_range.2 (i2 m hm)
  have hsp := List.subperm_of_subset i1 hsub
  exact hsp.perm_of_length_le (by simp; omega)

/-- When as many packets were dropped as there are buffers, nothing is received any more, ever. -/
theorem dpdk_stopped (c : Config σ D) (s t : St σ D) (hs : ∀ d, s.toTx d = []) (hp : s.pool = []) (hc : s.card = []) (h : Steps c s t) :
    (∀ d, t.toTx d = []) ∧ t.pool = [] ∧ t.card = [] ∧ t.nf = s.nf ∧ t.sent = s.sent := by
  have hsend : ∀ (accept : Nat → Nat) (k n : Nat) (s : St σ D), (∀ d, s.toTx d = []) →
      (∀ d, (sendAll accept k n s).toTx d = []) ∧ (sendAll accept k n s).pool = s.pool ∧ (sendAll accept k n s).card = s.card ∧
        (sendAll accept k n s).nf = s.nf ∧ (sendAll accept k n s).sent = s.sent := by
    intro accept k
    induction k with
    | zero => intro n s h; exact ⟨h, rfl, rfl, rfl, rfl⟩
    | succ k ih =>
      intro n s h
      obtain ⟨a, b, e, g, i⟩ := ih (n + 1) (sendOne n (accept n) s) (fun d => by simp [sendOne, upd, h])
      refine ⟨a, b.trans (by simp [sendOne, h]), e.trans (by simp [sendOne, h]), g, i.trans ?_⟩
      funext d
      simp only [sendOne, h, upd]
      split <;> simp_all
  induction h with
  | refl => exact ⟨hs, hp, hc, rfl, rfl⟩
  | step _ h ih =>
    obtain ⟨a, b, e, g, i⟩ := ih
    cases h with
    | iterate _ input rx accept hin hrx hit =>
      have : rx = [] := by
        cases rx with
        | nil => rfl
        | cons r rs => have := hrx.2.2 r (by simp); rw [b] at this; cases this
      subst this
      simp only [iteration, handleAll, Option.bind_eq_bind, Option.bind_some, Option.some.injEq] at hit
      subst hit
      rename_i t0 _
      obtain ⟨a', b', e', g', i'⟩ := hsend accept c.devices 0
        { t0 with buf := fill t0.buf [], pool := t0.pool.filter fun m => !(([] : List (Rx D)).map Rx.m).contains m } a
      exact ⟨a', b'.trans (by simp [b]), e'.trans e, g'.trans g, i'.trans i⟩
    | complete l l' m hc' => rw [e] at hc'; simp at hc'

/-- The full claim is false: with any network function that drops some kind of packet, as
many such packets as there are buffers are enough for nothing to be received or sent any
more, whatever happens later. (The firewall, the NAT, the policer, the router and the load balancer drop packets that are not IPv4.) -/
theorem C60_drops_stop (c : Config σ D) (hd : 0 < c.devices) (hb : 0 < c.batch) (x : D)
    (hdrop : ∀ (g : σ) (time : Nat), (c.handler g x time 0).2.2 = []) (n : Nat) (f : σ) (b : Nat → D) :
    ∃ s, Steps c (start f b n) s ∧ ∀ t, Steps c s t →
      (∀ rx, Receivable c t rx → rx = []) ∧ t.nf = s.nf ∧ t.sent = s.sent := by
  have hsend : ∀ (accept : Nat → Nat) (k n : Nat) (s : St σ D), (∀ d, s.toTx d = []) →
      (∀ d, (sendAll accept k n s).toTx d = []) ∧ (sendAll accept k n s).pool = s.pool ∧ (sendAll accept k n s).card = s.card := by
    intro accept k
    induction k with
    | zero => intro n s h; exact ⟨h, rfl, rfl⟩
    | succ k ih =>
      intro n s h
      obtain ⟨a, b, e⟩ := ih (n + 1) (sendOne n (accept n) s) (fun d => by simp [sendOne, upd, h])
      exact ⟨a, b.trans (by simp [sendOne, h]), e.trans (by simp [sendOne, h])⟩
  have hgo : ∀ j ≤ n, ∃ s, Steps c (start f b n) s ∧ (∀ d, s.toTx d = []) ∧ s.pool = (List.range n).drop j ∧ s.card = [] := by
    intro j
    induction j with
    | zero => intro _; exact ⟨_, .refl, fun _ => rfl, rfl, rfl⟩
    | succ j ih =>
      intro hj
      obtain ⟨s, h, h1, h2, h3⟩ := ih (by omega)
      have hpool : s.pool = j :: (List.range n).drop (j + 1) := by
        rw [h2, List.drop_eq_getElem_cons (by simp; omega)]; simp
      have hfil : (s.pool.filter fun m => !([j] : List Nat).contains m) = (List.range n).drop (j + 1) := by
        have hnd : s.pool.Nodup := by rw [h2]; exact List.nodup_range.sublist (List.drop_sublist _ _)
        rw [hpool] at hnd ⊢
        have hj' := (List.nodup_cons.1 hnd).1
        rw [List.filter_cons, if_neg (by simp)]
        rw [List.filter_eq_self]
        intro m hm
        have : m ≠ j := fun e => hj' (e ▸ hm)
        simp [this]
      let s1 : St σ D := { s with
        buf := upd (fill s.buf [⟨j, x, 0⟩]) j (c.handler s.nf x 0 0).2.1
        pool := (List.range n).drop (j + 1)
        nf := (c.handler s.nf x 0 0).1 }
      obtain ⟨a, b', e⟩ := hsend (fun _ => 0) c.devices 0 s1 h1
      refine ⟨sendAll (fun _ => 0) c.devices 0 s1, .step h (.iterate _ _ 0 [⟨j, x, 0⟩] (fun _ => 0) hd ⟨hb, by simp, ?_⟩ ?_), a, b', e.trans h3⟩
      · intro r hr
        simp only [List.mem_singleton] at hr
        subst hr
        rw [hpool]; simp
      · have hfill : fill s.buf [(⟨j, x, 0⟩ : Rx D)] j = x := by simp [fill, upd]
        simp only [iteration, handleAll, handleOne, hfill, hdrop, calls, Option.bind_eq_bind, Option.bind_some, List.map_cons,
          List.map_nil, hfil]
        rfl
  obtain ⟨s, h, h1, h2, h3⟩ := hgo n (by omega)
  have h2' : s.pool = [] := by rw [h2]; simp
  refine ⟨s, h, fun t ht => ?_⟩
  obtain ⟨_, b', e, g, i⟩ := dpdk_stopped c s t h1 h2' h3 ht
  refine ⟨fun rx hrx => ?_, g, i⟩
  cases rx with
  | nil => rfl
  | cons r rs => have := hrx.2.2 r (by simp); rw [b'] at this; cases this

/-- Two calls for one packet write out of the bounds of the array if the batch is full of such packets. -/
theorem C60_two_calls_overflow (batch : Nat) (hb : 0 < batch) : ∃ (c : Config Unit Nat) (s : St Unit Nat) (rx : List (Rx Nat)),
    c.batch = batch ∧ c.devices = 2 ∧ (∀ d, s.toTx d = []) ∧ Receivable c s rx ∧
    (∀ f x t i, (c.handler f x t i).2.2 = [.transmit 1 false, .transmit 1 false]) ∧
    ∀ accept, iteration c 0 rx accept s = none := by
  refine ⟨⟨2, batch, fun f x _ _ => (f, x, [.transmit 1 false, .transmit 1 false]), fun _ x => x⟩, start () (fun _ => 0) batch,
    (List.range batch).map fun m => ⟨m, 0, 0⟩, rfl, rfl, fun _ => rfl, ⟨by simp, ?_, ?_⟩, fun _ _ _ _ => rfl, ?_⟩
  · rw [List.map_map]
    have : (Rx.m ∘ fun m => (⟨m, 0, 0⟩ : Rx Nat)) = id := rfl
    rw [this, List.map_id]
    exact List.nodup_range
  · intro r hr
    obtain ⟨m, hm, rfl⟩ := List.mem_map.1 hr
    exact hm
  · intro accept
    have hone : ∀ (rx : List (Rx Nat)) (s : St Unit Nat), (s.toTx 1).length + 2 * rx.length > batch → rx ≠ [] ∨ (s.toTx 1).length > batch →
        handleAll ⟨2, batch, fun f x _ _ => (f, x, [.transmit 1 false, .transmit 1 false]), fun _ x => x⟩ 0 rx s = none ∨ rx = [] := by
      intro rx
      induction rx with
      | nil => intro s _ _; exact Or.inr rfl
      | cons r rs ih =>
        intro s h1 _
        left
        simp only [List.length_cons] at h1
        by_cases hl : (s.toTx 1).length < batch
        · by_cases hl2 : (s.toTx 1).length + 1 < batch
          · have hstep : ∃ t : St Unit Nat, handleOne ⟨2, batch, fun f x _ _ => (f, x, [.transmit 1 false, .transmit 1 false]), fun _ x => x⟩ 0 r.m r.time s = some t ∧
                (t.toTx 1).length = (s.toTx 1).length + 2 := by
              refine ⟨{ s with
                buf := upd s.buf r.m (s.buf r.m)
                toTx := upd (upd s.toTx 1 (s.toTx 1 ++ [r.m])) 1 (upd s.toTx 1 (s.toTx 1 ++ [r.m]) 1 ++ [r.m]) }, ?_, by simp [upd]⟩
              simp only [handleOne, calls, call, enqueue]
              rw [if_pos (by decide), if_pos hl]
              simp only [Option.bind_eq_bind, Option.bind_some]
              rw [if_pos (by decide), if_pos (by simpa [upd] using hl2)]
              rfl
            obtain ⟨t, ht, hlen⟩ := hstep
            simp only [handleAll, ht, Option.bind_eq_bind, Option.bind_some]
            have hne : rs ≠ [] := by rintro rfl; simp at h1; omega
            rcases ih t (by omega) (Or.inl hne) with h | h
            · exact h
            · exact absurd h hne
          · have : handleOne (⟨2, batch, fun f x _ _ => (f, x, [.transmit 1 false, .transmit 1 false]), fun _ x => x⟩ : Config Unit Nat) 0 r.m r.time s = none := by
              simp [handleOne, calls, call, enqueue, hl, hl2, upd]
            simp only [handleAll, this, Option.bind_eq_bind, Option.bind_none]
        · have : handleOne (⟨2, batch, fun f x _ _ => (f, x, [.transmit 1 false, .transmit 1 false]), fun _ x => x⟩ : Config Unit Nat) 0 r.m r.time s = none := by
            simp [handleOne, calls, call, enqueue, hl]
          simp only [handleAll, this, Option.bind_eq_bind, Option.bind_none]
    have hne : ((List.range batch).map fun m => (⟨m, 0, 0⟩ : Rx Nat)) ≠ [] := by
      intro h
      have := congrArg List.length h
      simp at this
      omega
    simp only [iteration]
    rcases hone ((List.range batch).map fun m => (⟨m, 0, 0⟩ : Rx Nat)) { start () (fun _ => 0) batch with
        buf := fill (start () (fun _ => 0) batch).buf ((List.range batch).map fun m => (⟨m, 0, 0⟩ : Rx Nat))
        pool := (start () (fun _ => 0) batch).pool.filter fun m => !(((List.range batch).map fun m => (⟨m, 0, 0⟩ : Rx Nat)).map Rx.m).contains m }
        (by simp [start]; omega) (Or.inl hne) with h | h
    · rw [h]; rfl
    · exact absurd h hne

/-- A packet that is transmitted on both devices has its buffer handed to both cards, and
returned to the pool twice. -/
theorem C60_two_calls_shared : ∃ (c : Config Unit Nat) (s : St Unit Nat), c.devices = 2 ∧
    (∀ f x t i, (c.handler f x t i).2.2 = [.transmit 0 false, .transmit 1 false]) ∧
    Steps c (start () (fun _ => 0) 1) s ∧ s.pool = [0, 0] := by
  let c : Config Unit Nat := ⟨2, 1, fun f x _ _ => (f, x, [.transmit 0 false, .transmit 1 false]), fun _ x => x⟩
  refine ⟨c, _, rfl, fun _ _ _ _ => rfl, .step (.step (.step .refl (.iterate _ _ 0 [⟨0, 5, 0⟩] (fun _ => 1) (by decide) ⟨by decide, by simp, ?_⟩ rfl))
    (.complete _ [] [0] 0 rfl)) (.complete _ [] [] 0 rfl), rfl⟩
  intro r hr
  simp only [List.mem_singleton] at hr
  subst hr
  simp [start]

/-- Non-vacuity: a network function that sends packets with even contents on the other device
and drops the rest, with two packets received in two buffers. -/
example : ∃ (c : Config Unit Nat) (t : St Unit Nat), AtMostOnce c ∧ c.devices = 2 ∧
    Receivable c (start () (fun _ => 0) 2) [⟨0, 4, 0⟩, ⟨1, 5, 0⟩] ∧
    iteration c 0 [⟨0, 4, 0⟩, ⟨1, 5, 0⟩] (fun _ => 1) (start () (fun _ => 0) 2) = some t ∧ t.sent 1 = [104] ∧ t.pool = [] ∧ t.card = [0] := by
  refine ⟨⟨2, 2, fun f x _ _ => (f, x, if x % 2 = 0 then [.flood true] else []), fun _ x => x + 100⟩, _, ?_, rfl, ⟨by decide, by decide, ?_⟩, rfl, rfl, rfl, rfl⟩
  · intro f x time input _
    dsimp only
    split
    · exact Or.inr ⟨_, rfl, trivial⟩
    · exact Or.inl rfl
  · intro r hr
    simp only [List.mem_cons, List.not_mem_nil, or_false] at hr
    rcases hr with rfl | rfl <;> simp [start]

end Verif.Props
