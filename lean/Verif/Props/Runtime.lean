/- Property C49: transmit, flood and device indices of the runtime. -/
import Verif.Nf.Runtime
import Verif.Base

set_option autoImplicit false

namespace Verif.Props
open Verif.Nf (Packet Out)
open Verif.Nf.Runtime (Macs indexFromDevice deviceFromIndex outputOf sent emit)

/-- For every input device the other devices and the outputs correspond one-to-one, and the
runtime and the driver agree on which output belongs to which device. -/
theorem C49_indices_one_to_one (n input : Nat) (hi : input < n) :
    (∀ d < n, d ≠ input → indexFromDevice input d < n - 1 ∧ deviceFromIndex input (indexFromDevice input d) = d ∧
      outputOf input d = some (indexFromDevice input d)) ∧
    (∀ i < n - 1, deviceFromIndex input i < n ∧ deviceFromIndex input i ≠ input ∧
      indexFromDevice input (deviceFromIndex input i) = i ∧ outputOf input (deviceFromIndex input i) = some i) := by
  constructor
  · intro d hd hne
    unfold indexFromDevice deviceFromIndex outputOf
    rw [if_pos hne]
    refine ⟨by split <;> omega, by split <;> split <;> omega, rfl⟩
  · intro i h
    have h1 : deviceFromIndex input i ≠ input := by unfold deviceFromIndex; split <;> omega
    refine ⟨by unfold deviceFromIndex; split <;> omega, h1, by unfold indexFromDevice deviceFromIndex; split <;> split <;> omega, ?_⟩
    unfold outputOf
    rw [if_pos h1]
    unfold deviceFromIndex
    congr 1
    split <;> split <;> omega

theorem handleFlags_ok (macs : Macs) (n : Nat) (h1 : macs.endpoint.length = n) (h2 : macs.device.length = n) (m : Mem) (d : Nat)
    (hd : d < n) (u : Bool) : ∃ m', Nf.Runtime.handleFlags macs m d u = some m' ∧
      m' = (if u then Nf.Runtime.stMac (Nf.Runtime.stMac m 0 ((macs.endpoint[d]?).getD [])) 6 ((macs.device[d]?).getD []) else m) := by
  cases u with
  | false => exact ⟨m, rfl, rfl⟩
  | true =>
    refine ⟨_, ?_, rfl⟩
    simp [Nf.Runtime.handleFlags, h1, h2, hd]

/-- net_transmit to another device sends the packet on exactly that device. The buffer is
unchanged, except that with UPDATE_ETHER_ADDRS its addresses become those of the device. -/
theorem C49_transmit (macs : Macs) (n : Nat) (h1 : macs.endpoint.length = n) (h2 : macs.device.length = n) (p : Packet)
    (hp : p.device < n) (hl : p.length ≠ 0) (d : Nat) (hd : d < n) (hne : d ≠ p.device) (u : Bool) :
    ∃ m lens, emit macs n (List.replicate (n - 1) 0) (.transmit p d u) = some (m, lens) ∧
      (∀ d', sent p.device lens d' = if d' = d then some p.length else none) ∧
      (u = false → m = p.data) ∧
      (u = true → (∀ x, x ≥ 12 → m x = p.data x) ∧
        (∀ x < 6, some (m x) = (macs.endpoint[d]?).map fun a => (a[x]?).getD 0) ∧
        (∀ x < 6, some (m (6 + x)) = (macs.device[d]?).map fun a => (a[x]?).getD 0)) := by
  obtain ⟨m, hm, hme⟩ := handleFlags_ok macs n h1 h2 p.data d hd u
  have hidx := (C49_indices_one_to_one n p.device hp).1 d hd hne
  refine ⟨m, (List.replicate (n - 1) 0).set (indexFromDevice p.device d) p.length, ?_, ?_, ?_, ?_⟩
  · simp [emit, Nf.Runtime.netTransmit, hm, Nf.Runtime.store, hidx.1]
  · intro d'
    unfold sent
    by_cases hd' : d' = p.device
    · rw [if_neg (by omega)]; simp [outputOf, hd']
    · have ho : outputOf p.device d' = some (indexFromDevice p.device d') := by simp [outputOf, indexFromDevice, hd']
      rw [ho]
      by_cases he : d' = d
      · subst he; simp [hidx.1, hl]
      · have hneq : indexFromDevice p.device d ≠ indexFromDevice p.device d' := by
          unfold indexFromDevice; split <;> split <;> omega
        simp only [List.getElem?_set, if_neg hneq, if_neg he]
        cases hr : (List.replicate (n - 1) 0)[indexFromDevice p.device d']? with
        | none => rfl
        | some l =>
          rw [List.getElem?_replicate] at hr
          split at hr
          · cases hr; simp
          · cases hr
  · rintro rfl; exact hme
  · rintro rfl
    simp only [if_true] at hme
    subst hme
    have e1 : macs.endpoint[d]? = some macs.endpoint[d] := List.getElem?_eq_getElem (by omega)
    have e2 : macs.device[d]? = some macs.device[d] := List.getElem?_eq_getElem (by omega)
    refine ⟨fun x hx => ?_, fun x hx => ?_, fun x hx => ?_⟩
    · simp only [Nf.Runtime.stMac]
      rw [if_neg (by omega), if_neg (by omega)]
    · simp only [Nf.Runtime.stMac, e1, Option.map_some, Option.getD_some]
      rw [if_neg (by omega), if_pos (by omega)]
      simp
    · simp only [Nf.Runtime.stMac, e2, Option.map_some, Option.getD_some]
      rw [if_pos (by omega)]
      simp

/-- What the flooding loop does to the lengths. -/
theorem floodLoop_spec (macs : Macs) (n : Nat) (h1 : macs.endpoint.length = n) (h2 : macs.device.length = n)
    (input length : Nat) (hi : input < n) (u : Bool) (dis : Option (List Bool)) (hdis : ∀ l, dis = some l → l.length = n) :
    ∀ (k i : Nat) (m : Mem) (lens : List Nat), i + k = n - 1 → lens.length = n - 1 →
      ∃ m' lens', Nf.Runtime.floodLoop macs input length u dis k i m lens = some (m', lens') ∧ lens'.length = n - 1 ∧
        (∀ j < i, lens'[j]? = lens[j]?) ∧
        (∀ j, i ≤ j → j < n - 1 → lens'[j]? =
          some (if dis.any (fun l => l[deviceFromIndex input j]? == some true) then 0 else length)) ∧
        (u = false → m' = m) ∧ (∀ x, x ≥ 12 → m' x = m x) := by
  intro k
  induction k with
  | zero => intro i m lens hik hlen; exact ⟨m, lens, rfl, hlen, fun _ _ => rfl, fun j a b => by omega, fun _ => rfl, fun _ _ => rfl⟩
  | succ k ih =>
    intro i m lens hik hlen
    have hdev : deviceFromIndex input i < n := ((C49_indices_one_to_one n input hi).2 i (by omega)).1
    obtain ⟨m1, hm1, hme⟩ := handleFlags_ok macs n h1 h2 m _ hdev u
    have hoff : ∃ off, Nf.Runtime.isOff dis (deviceFromIndex input i) = some off ∧
        off = dis.any (fun l => l[deviceFromIndex input i]? == some true) := by
      cases dis with
      | none => exact ⟨false, rfl, rfl⟩
      | some l =>
        have : deviceFromIndex input i < l.length := by rw [hdis l rfl]; exact hdev
        refine ⟨l[deviceFromIndex input i], by simp [Nf.Runtime.isOff, List.getElem?_eq_getElem this], ?_⟩
        simp [List.getElem?_eq_getElem this]
    obtain ⟨off, ho1, ho2⟩ := hoff
    obtain ⟨m', lens', h3, h4, h5, h6, h7, h8⟩ := ih (i + 1) m1 (lens.set i (if off then 0 else length)) (by omega) (by simpa using hlen)
    refine ⟨m', lens', ?_, h4, ?_, ?_, ?_, ?_⟩
    · unfold Nf.Runtime.floodLoop
      simp only [hm1, Option.bind_eq_bind, Option.bind_some, ho1]
      simp [Nf.Runtime.store, show i < lens.length by omega, h3]
    · intro j hj
      rw [h5 j (by omega), List.getElem?_set_ne (by omega)]
    · intro j hj hj2
      by_cases he : j = i
      · subst he
        rw [h5 j (by omega), List.getElem?_set_self (by omega), ho2]
      · exact h6 j (by omega) hj2
    · intro hu
      rw [h7 hu, hme, hu]; rfl
    · intro x hx
      rw [h8 x hx, hme]
      cases u with
      | false => rfl
      | true =>
        simp only [if_true, Nf.Runtime.stMac]
        rw [if_neg (by omega), if_neg (by omega)]

theorem flood_any (macs : Macs) (n : Nat) (h1 : macs.endpoint.length = n) (h2 : macs.device.length = n) (p : Packet)
    (hp : p.device < n) (hl : p.length ≠ 0) (u : Bool) (dis : Option (List Bool)) (hdis : ∀ l, dis = some l → l.length = n) :
    ∃ m lens, Nf.Runtime.floodLoop macs p.device p.length u dis (n - 1) 0 p.data (List.replicate (n - 1) 0) = some (m, lens) ∧
      (∀ d, sent p.device lens d =
        if d < n ∧ d ≠ p.device ∧ ¬ (∃ l, dis = some l ∧ l[d]? = some true) then some p.length else none) ∧
      (u = false → m = p.data) ∧ (∀ x, x ≥ 12 → m x = p.data x) := by
  obtain ⟨m, lens, h3, h4, _, h6, h7, h8⟩ := floodLoop_spec macs n h1 h2 p.device p.length hp u dis hdis (n - 1) 0 p.data
    (List.replicate (n - 1) 0) (by omega) (by simp)
  refine ⟨m, lens, h3, ?_, h7, h8⟩
  intro d
  unfold sent
  by_cases hd : d = p.device
  · rw [if_neg (by omega)]; simp [outputOf, hd]
  have ho : outputOf p.device d = some (indexFromDevice p.device d) := by simp [outputOf, indexFromDevice, hd]
  rw [ho]
  by_cases hdn : d < n
  · have hidx := (C49_indices_one_to_one n p.device hp).1 d hdn hd
    simp only [h6 _ (by omega) hidx.1, hidx.2.1]
    cases dis with
    | none => simp [hdn, hd, hl]
    | some l =>
      by_cases hb : l[d]? = some true
      · simp [hb]
      · simp [hb, hdn, hd, hl]
  · rw [if_neg (by omega)]
    have : lens[indexFromDevice p.device d]? = none := by
      apply List.getElem?_eq_none
      unfold indexFromDevice; split <;> omega
    simp [this]

/-- net_flood sends the packet, once, on every device except its own, unmodified unless
asked to update the addresses. -/
theorem C49_flood (macs : Macs) (n : Nat) (h1 : macs.endpoint.length = n) (h2 : macs.device.length = n) (p : Packet)
    (hp : p.device < n) (hl : p.length ≠ 0) (u : Bool) :
    ∃ m lens, emit macs n (List.replicate (n - 1) 0) (.flood p u) = some (m, lens) ∧
      (∀ d, sent p.device lens d = if d < n ∧ d ≠ p.device then some p.length else none) ∧
      (u = false → m = p.data) ∧ (∀ x, x ≥ 12 → m x = p.data x) := by
  obtain ⟨m, lens, h3, h4, h5, h6⟩ := flood_any macs n h1 h2 p hp hl u none (by simp)
  exact ⟨m, lens, h3, by simpa using h4, h5, h6⟩

/-- net_flood_except additionally leaves out the disabled devices. -/
theorem C49_flood_except (macs : Macs) (n : Nat) (h1 : macs.endpoint.length = n) (h2 : macs.device.length = n) (p : Packet)
    (hp : p.device < n) (hl : p.length ≠ 0) (u : Bool) (dis : List Bool) (hdis : dis.length = n) :
    ∃ m lens, emit macs n (List.replicate (n - 1) 0) (.floodExcept p dis u) = some (m, lens) ∧
      (∀ d, sent p.device lens d = if d < n ∧ d ≠ p.device ∧ dis[d]? = some false then some p.length else none) ∧
      (u = false → m = p.data) ∧ (∀ x, x ≥ 12 → m x = p.data x) := by
  obtain ⟨m, lens, h3, h4, h5, h6⟩ := flood_any macs n h1 h2 p hp hl u (some dis) (by simpa using hdis)
  refine ⟨m, lens, h3, ?_, h5, h6⟩
  intro d
  rw [h4]
  by_cases hd : d < n
  · have : dis[d]? = some dis[d] := List.getElem?_eq_getElem (by omega)
    simp [this]
  · simp [hd]

/-- Outside the claim: transmitting to the packet's own device, which tx.h does not forbid,
sends it on the next device instead. -/
theorem C49_transmit_to_input_misdirected (macs : Macs) (n : Nat) (h1 : macs.endpoint.length = n)
    (h2 : macs.device.length = n) (p : Packet) (hp : p.device + 1 < n) (hl : p.length ≠ 0) (u : Bool) :
    ∃ m lens, emit macs n (List.replicate (n - 1) 0) (.transmit p p.device u) = some (m, lens) ∧
      sent p.device lens (p.device + 1) = some p.length := by
  obtain ⟨m, hm, _⟩ := handleFlags_ok macs n h1 h2 p.data p.device (by omega) u
  refine ⟨m, (List.replicate (n - 1) 0).set p.device p.length, ?_, ?_⟩
  · simp [emit, Nf.Runtime.netTransmit, hm, Nf.Runtime.store, indexFromDevice, show p.device < n - 1 by omega]
  · simp [sent, outputOf, show p.device < n - 1 by omega, hl]

/-- ... and writes out of bounds if it is the last device. -/
theorem C49_transmit_to_last_input_out_of_bounds (macs : Macs) (n : Nat) (p : Packet) (hp : p.device = n - 1) (u : Bool) :
    emit macs n (List.replicate (n - 1) 0) (.transmit p p.device u) = none := by
  simp only [emit, Nf.Runtime.netTransmit, Nf.Runtime.store, indexFromDevice, hp]
  cases Nf.Runtime.handleFlags macs p.data (n - 1) u <;> simp

/-- Outside the claim: flooding with UPDATE_ETHER_ADDRS does not give each copy the
addresses of its own device: the single shared buffer ends with the last device's. -/
theorem C49_flood_update_shares_addresses : ∃ (macs : Macs) (p : Packet) (m : Mem) (lens : List Nat),
    emit macs 3 [0, 0] (.flood p true) = some (m, lens) ∧ sent p.device lens 1 = some p.length ∧
    m 6 ≠ ((macs.device[1]?).getD [])[0]?.getD 0 ∧ m 6 = ((macs.device[2]?).getD [])[0]?.getD 0 :=
  ⟨⟨[[0], [1], [2]], [[10], [11], [12]]⟩, ⟨fun _ => 0, 60, 0, 0⟩, _, _, rfl, by decide, by decide, by decide⟩

/-- Non-vacuity: a packet from the middle one of three devices. -/
example : (emit ⟨[[0], [1], [2]], [[10], [11], [12]]⟩ 3 [0, 0] (.floodExcept ⟨fun _ => 0, 60, 0, 1⟩ [false, false, true] false)).map
    (fun r => (List.range 4).map (sent 1 r.2)) = some [some 60, none, none, none] := by decide

end Verif.Props
