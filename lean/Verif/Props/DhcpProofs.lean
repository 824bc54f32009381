/- Lemmas about the model of the DHCP server: the address array and the bytes of replies. -/
import Verif.Nf.Dhcp
import Verif.Nf.TableProofs
import Verif.Nf.ExpiringProofs
import Mathlib.Data.List.Range
import Mathlib.Data.List.Count
import Mathlib.Data.List.Nodup
import Mathlib.Tactic.Ring

set_option autoImplicit false

namespace Verif.Nf.Dhcp
open Verif.Memory Verif.IndexPool Verif.IndexPoolSpec

/-- The addresses from `next` on that the loop does not skip. -/
def cands (server gateway dns limit next : Nat) : List Nat :=
  (List.range' next (limit - next)).filter fun x => decide (x ≠ server ∧ x ≠ gateway ∧ x ≠ dns)

theorem cands_step {server gateway dns limit next : Nat} (h : next < limit) :
    cands server gateway dns limit next =
      if next ≠ server ∧ next ≠ gateway ∧ next ≠ dns then next :: cands server gateway dns limit (next + 1)
      else cands server gateway dns limit (next + 1) := by
  unfold cands
  obtain ⟨d, hd⟩ : ∃ d, limit - next = d + 1 := ⟨limit - next - 1, by omega⟩
  rw [hd, List.range'_succ, show limit - (next + 1) = d by omega, List.filter_cons]
  by_cases hc : next ≠ server ∧ next ≠ gateway ∧ next ≠ dns <;> simp [hc]

theorem cands_nil {server gateway dns limit next : Nat} (h : ¬ next < limit) :
    cands server gateway dns limit next = [] := by
  unfold cands; rw [show limit - next = 0 by omega]; rfl

theorem fill_spec (server gateway dns limit : Nat) (hl : limit < 2 ^ 32) :
    ∀ (fuel next index : Nat) (arr : List Nat), index < arr.length → limit - next < fuel →
      ∃ r, fill server gateway dns limit (fuel) next index arr = some r ∧ r.length = arr.length ∧
        ∀ j < arr.length, r[j]? =
          if j < index then arr[j]? else ((cands server gateway dns limit next)[j - index]?).or arr[j]? := by
  intro fuel
  induction fuel with
  | zero =>
    intro next index arr hi hf
    omega
  | succ fuel ih =>
    intro next index arr hi hf
    by_cases hn : next < limit
    · have hmod : (next + 1) % 2 ^ 32 = next + 1 := Nat.mod_eq_of_lt (by omega)
      by_cases hc : next ≠ server ∧ next ≠ gateway ∧ next ≠ dns
      · have hset : ∀ j, (arr.set index next)[j]? = if j = index then some next else arr[j]? := by
          intro j; rw [List.getElem?_set]
          by_cases he : index = j
          · subst he; simp [hi]
          · simp [he, Ne.symm he]
        rw [cands_step hn, if_pos hc]
        by_cases hlast : index + 1 = arr.length
        · refine ⟨arr.set index next, by simp only [fill, if_pos hn, if_pos hc, if_pos hi, if_pos hlast],
            by simp, fun j hj => ?_⟩
          rw [hset]
          by_cases he : j = index
          · subst he; simp
          · rw [if_neg he, if_pos (by omega)]
        · obtain ⟨r, h1, h2, h3⟩ := ih (next + 1) (index + 1) (arr.set index next)
            (by rw [List.length_set]; omega) (by omega)
          refine ⟨r, by simp only [fill, if_pos hn, if_pos hc, if_pos hi, if_neg hlast, hmod, h1],
            by rw [h2, List.length_set], fun j hj => ?_⟩
          rw [h3 j (by rw [List.length_set]; exact hj), hset]
          by_cases he : j = index
          · subst he; simp
          · by_cases hlt : j < index
            · rw [if_pos (by omega), if_neg he, if_pos hlt]
            · rw [if_neg (by omega), if_neg he, if_neg hlt, show j - index = (j - (index + 1)) + 1 by omega,
                List.getElem?_cons_succ]
      · rw [cands_step hn, if_neg hc]
        obtain ⟨r, h1, h2, h3⟩ := ih (next + 1) index arr hi (by omega)
        exact ⟨r, by simp only [fill, if_pos hn, if_neg hc, if_neg (Nat.ne_of_lt hi), hmod, h1], h2, h3⟩
    · rw [cands_nil hn]
      exact ⟨arr, by simp only [fill, if_neg hn], rfl, fun j hj => by simp⟩

theorem length_cands (server gateway dns limit next : Nat) :
    limit - next ≤ (cands server gateway dns limit next).length + 3 := by
  have hnd : (List.range' next (limit - next)).Nodup := List.nodup_range'
  have h1 := List.length_eq_length_filter_add (l := List.range' next (limit - next))
    (fun x => decide (x ≠ server ∧ x ≠ gateway ∧ x ≠ dns))
  rw [List.length_range'] at h1
  have h2 : ((List.range' next (limit - next)).filter
      fun x => !decide (x ≠ server ∧ x ≠ gateway ∧ x ≠ dns)).length ≤ 3 := by
    have hsub : ((List.range' next (limit - next)).filter
        fun x => !decide (x ≠ server ∧ x ≠ gateway ∧ x ≠ dns)) ⊆ [server, gateway, dns] := by
      intro x hx
      have := (List.mem_filter.1 hx).2
      simp only [Bool.not_eq_true', decide_eq_false_iff_not] at this
      simp only [List.mem_cons, List.not_mem_nil, or_false]
      by_contra hno
      exact this ⟨fun h => hno (.inl h), fun h => hno (.inr (.inl h)), fun h => hno (.inr (.inr h))⟩
    exact (List.subperm_of_subset (hnd.filter _) hsub).length_le
  unfold cands
  omega

/-- The network part of an address, for a mask with `k` host bits. -/
theorem subnet_eq {a k : Nat} (ha : a < 2 ^ 32) (hk : k ≤ 32) : a &&& (2 ^ 32 - 2 ^ k) = a / 2 ^ k * 2 ^ k := by
  have e : 2 ^ 32 - 2 ^ k = (2 ^ (32 - k) - 1) <<< k := by
    rw [Nat.shiftLeft_eq, Nat.sub_mul, one_mul, ← pow_add, show 32 - k + k = 32 by omega]
  rw [e, show a / 2 ^ k * 2 ^ k = (a >>> k) <<< k by rw [Nat.shiftLeft_eq, Nat.shiftRight_eq_div_pow]]
  apply Nat.eq_of_testBit_eq
  intro i
  rw [Nat.testBit_and, Nat.testBit_shiftLeft, Nat.testBit_shiftLeft, Nat.testBit_two_pow_sub_one, Nat.testBit_shiftRight]
  by_cases h : k ≤ i
  · rw [show k + (i - k) = i by omega]
    by_cases h32 : i < 32
    · simp [h, show i - k < 32 - k by omega]
    · rw [Nat.testBit_lt_two_pow (Nat.lt_of_lt_of_le ha (Nat.pow_le_pow_right (by omega) (by omega)))]
      simp
  · simp [h]

theorem and_le_mask (a m : Nat) : a &&& m ≤ m := Nat.and_le_right

/-- What nf_init does with configuration values that fit their types. -/
theorem setup_spec (capacity server mask gateway dns exp tmp : Nat) (hm : mask < 2 ^ 32) :
    ∃ r, setup capacity server mask gateway dns exp tmp = some r ∧
      (r = none ↔ capacity = 0 ∨ mask = 2 ^ 32 - 5) ∧
      ∀ s, r = some s → s.serverIp = server ∧ s.mask = mask ∧ s.gateway = gateway ∧ s.dns = dns ∧ s.exp = exp ∧
        s.mac = (List.range 6).map (fun i => UInt8.ofNat (tmp / 256 ^ i)) ∧
        s.ips.length = (if 2 ^ 32 - 1 - mask < 4 then min capacity (2 ^ 64 + (2 ^ 32 - 1 - mask) - 4)
          else min capacity (2 ^ 32 - 1 - mask - 4)) ∧
        Inv s.ips.length exp s.table ∧ (∀ c, look s.table c = none) ∧
        ∀ j < s.ips.length, s.ips[j]? =
          ((cands server gateway dns ((server &&& mask) + (2 ^ 32 - 1 - mask)) (((server &&& mask) + 1) % 2 ^ 32))[j]?).or
            (some 0) := by
  have hle := and_le_mask server mask
  have hcap : (if (2 ^ 32 - 1 - mask + 2 ^ 64 - 4) % 2 ^ 64 < capacity then (2 ^ 32 - 1 - mask + 2 ^ 64 - 4) % 2 ^ 64
      else capacity) = (if 2 ^ 32 - 1 - mask < 4 then min capacity (2 ^ 64 + (2 ^ 32 - 1 - mask) - 4)
          else min capacity (2 ^ 32 - 1 - mask - 4)) := by
    by_cases h4 : 2 ^ 32 - 1 - mask < 4
    · rw [if_pos h4, Nat.mod_eq_of_lt (by omega)]; split <;> omega
    · rw [if_neg h4, show 2 ^ 32 - 1 - mask + 2 ^ 64 - 4 = (2 ^ 32 - 1 - mask - 4) + 2 ^ 64 by omega,
        Nat.add_mod_right, Nat.mod_eq_of_lt (by omega)]
      split <;> omega
  unfold setup
  simp only [hcap]
  generalize hC : (if 2 ^ 32 - 1 - mask < 4 then min capacity (2 ^ 64 + (2 ^ 32 - 1 - mask) - 4)
          else min capacity (2 ^ 32 - 1 - mask - 4)) = C
  by_cases h0 : C = 0
  · refine ⟨none, if_pos h0, ?_, by simp⟩
    simp only [true_iff]
    split at hC <;> omega
  · obtain ⟨tb, t1, t2, t3⟩ := inv_alloc (List.replicate 6 (0 : UInt8)) C exp
    obtain ⟨r, f1, f2, f3⟩ := fill_spec server gateway dns ((server &&& mask) + (2 ^ 32 - 1 - mask)) (by omega)
      ((server &&& mask) + (2 ^ 32 - 1 - mask) + 1) (((server &&& mask) + 1) % 2 ^ 32) 0 (List.replicate C 0)
      (by rw [List.length_replicate]; omega) (by omega)
    rw [List.length_replicate] at f2 f3
    refine ⟨some ⟨r, tb, (List.range 6).map (fun i => UInt8.ofNat (tmp / 256 ^ i)), server, mask, gateway, dns, exp⟩,
      ?_, ?_, ?_⟩
    · simp only [if_neg h0, t1, f1, Option.bind_eq_bind, Option.bind_some]
    · simp only [reduceCtorEq, false_iff]
      split at hC <;> omega
    · intro s hs
      cases hs
      refine ⟨rfl, rfl, rfl, rfl, rfl, rfl, f2, f2 ▸ t2, t3, fun j hj => ?_⟩
      have := f3 j (by rw [← f2]; exact hj)
      rw [this, if_neg (by omega), Nat.sub_zero]
      simp only [List.getElem?_replicate]
      rw [if_pos (by rw [← f2]; exact hj)]

/-- With at least three host bits, the array holds the first usable addresses. -/
theorem ips_take {server gateway dns k : Nat} {ips : List Nat} (hs : server < 2 ^ 32) (h3 : 3 ≤ k) (hk : k ≤ 32)
    (hlen : ips.length ≤ 2 ^ k - 5)
    (h : ∀ j < ips.length, ips[j]? =
      ((cands server gateway dns ((server &&& (2 ^ 32 - 2 ^ k)) + (2 ^ 32 - 1 - (2 ^ 32 - 2 ^ k)))
        (((server &&& (2 ^ 32 - 2 ^ k)) + 1) % 2 ^ 32))[j]?).or (some 0)) :
    ips = (cands server gateway dns (server / 2 ^ k * 2 ^ k + 2 ^ k - 1) (server / 2 ^ k * 2 ^ k + 1)).take ips.length := by
  have hp : 2 ^ 3 ≤ 2 ^ k := Nat.pow_le_pow_right (by omega) h3
  have hp2 : 2 ^ k ≤ 2 ^ 32 := Nat.pow_le_pow_right (by omega) hk
  rw [subnet_eq hs hk] at h
  have hle : server / 2 ^ k * 2 ^ k + 2 ^ k ≤ 2 ^ 32 := by
    have hdiv : server / 2 ^ k < 2 ^ (32 - k) := by
      rw [Nat.div_lt_iff_lt_mul (by positivity), ← pow_add, show 32 - k + k = 32 by omega]; exact hs
    calc server / 2 ^ k * 2 ^ k + 2 ^ k = (server / 2 ^ k + 1) * 2 ^ k := by ring
      _ ≤ 2 ^ (32 - k) * 2 ^ k := Nat.mul_le_mul_right _ hdiv
      _ = 2 ^ 32 := by rw [← pow_add, show 32 - k + k = 32 by omega]
  rw [show server / 2 ^ k * 2 ^ k + (2 ^ 32 - 1 - (2 ^ 32 - 2 ^ k)) = server / 2 ^ k * 2 ^ k + 2 ^ k - 1 by omega,
    Nat.mod_eq_of_lt (show server / 2 ^ k * 2 ^ k + 1 < 2 ^ 32 by omega)] at h
  have hc := length_cands server gateway dns (server / 2 ^ k * 2 ^ k + 2 ^ k - 1) (server / 2 ^ k * 2 ^ k + 1)
  apply List.ext_getElem?
  intro j
  rw [List.getElem?_take]
  by_cases hj : j < ips.length
  · rw [if_pos hj, h j hj, List.getElem?_eq_getElem (by omega)]; rfl
  · rw [if_neg hj, List.getElem?_eq_none (by omega)]

theorem mem_cands {server gateway dns limit next x : Nat} :
    x ∈ cands server gateway dns limit next ↔
      next ≤ x ∧ x < limit ∧ x ≠ server ∧ x ≠ gateway ∧ x ≠ dns := by
  unfold cands
  simp only [List.mem_filter, List.mem_range'_1, decide_eq_true_eq]
  constructor
  · rintro ⟨⟨h1, h2⟩, h3⟩; exact ⟨h1, by omega, h3⟩
  · rintro ⟨h1, h2, h3⟩; exact ⟨⟨h1, by omega⟩, h3⟩

theorem nodup_cands (server gateway dns limit next : Nat) : (cands server gateway dns limit next).Nodup :=
  List.Nodup.filter _ List.nodup_range'

/-! Bytes of replies. -/

theorem store_ne {m : Mem} {a x : Nat} {v : UInt8} (h : x ≠ a) : store m a v x = m x := if_neg h

theorem store_eq (m : Mem) (a : Nat) (v : UInt8) : store m a v a = v := if_pos rfl

theorem st32_ne {m : Mem} {a x v : Nat} (h : x < a ∨ a + 4 ≤ x) : st32 m a v x = m x := by
  simp only [st32, st16]
  rw [if_neg (by omega), if_neg (by omega), if_neg (by omega), if_neg (by omega)]

theorem st32_byte (m : Mem) (a v i : Nat) (hi : i < 4) : st32 m a v (a + i) = UInt8.ofNat (v / 256 ^ i) := by
  simp only [st32, st16]
  rcases (show i = 0 ∨ i = 1 ∨ i = 2 ∨ i = 3 by omega) with rfl | rfl | rfl | rfl
  · rw [if_neg (by omega), if_neg (by omega), if_pos (by omega)]; simp
  · rw [if_neg (by omega), if_neg (by omega), if_neg (by omega), if_pos rfl]; simp
  · rw [if_pos rfl]; norm_num
  · rw [if_neg (by omega), if_pos (by omega), Nat.div_div_eq_div_mul]; norm_num

theorem ld32_st32 (m : Mem) (a v : Nat) (hv : v < 2 ^ 32) : ld32 (st32 m a v) a = v := by
  have h0 := st32_byte m a v 0 (by omega)
  have h1 := st32_byte m a v 1 (by omega)
  have h2 := st32_byte m a v 2 (by omega)
  have h3 := st32_byte m a v 3 (by omega)
  rw [Nat.add_zero] at h0
  simp only [ld32, ld16, h0, h1, h2, Nat.add_assoc, Nat.reduceAdd, h3, UInt8.toNat_ofNat']
  norm_num
  omega

theorem ld32_congr {m m' : Mem} {a : Nat} (h : ∀ i < 4, m' (a + i) = m (a + i)) : ld32 m' a = ld32 m a := by
  have h0 := h 0 (by omega)
  have h1 := h 1 (by omega)
  have h2 := h 2 (by omega)
  have h3 := h 3 (by omega)
  rw [Nat.add_zero] at h0
  simp only [ld32, ld16, h0, h1, h2, Nat.add_assoc, Nat.reduceAdd, h3]

theorem options_congr {m m' : Mem} {h : Nat} (he : ∀ i < 8, m' (h + 240 + i) = m (h + 240 + i)) :
    options m' h = options m h := by
  unfold options ld64
  rw [ld32_congr (m := m) (m' := m') (a := h + 240) (fun i hi => he i (by omega)),
    ld32_congr (m := m) (m' := m') (a := h + 240 + 4) (fun i hi => by
      have := he (4 + i) (by omega); simpa only [Nat.add_assoc] using this)]

theorem setOptions_ne {m : Mem} {o x : Nat} {ty : UInt8} (h : x < o ∨ o + 34 ≤ x) : setOptions m o ty x = m x := by
  simp only [setOptions]
  rw [store_ne (by omega), store_ne (by omega), store_ne (by omega), store_ne (by omega), store_ne (by omega),
    store_ne (by omega), store_ne (by omega), store_ne (by omega), store_ne (by omega), store_ne (by omega),
    store_ne (by omega), store_ne (by omega)]

theorem setValues_ne {s : Server} {m : Mem} {o x : Nat} (h : x < o ∨ o + 34 ≤ x) : setValues s m o x = m x := by
  simp only [setValues]
  rw [st32_ne (by omega), st32_ne (by omega), st32_ne (by omega), st32_ne (by omega), st32_ne (by omega)]

/-- The bytes of a reply's options from the message type on. -/
def optionBytes (s : Server) (ty : UInt8) : List UInt8 :=
  let le (v : Nat) : List UInt8 := (List.range 4).map fun i => UInt8.ofNat (v / 256 ^ i)
  [ty] ++ [54, 4] ++ le s.serverIp ++ [1, 4] ++ le s.mask ++ [51, 4] ++ le s.exp ++ [3, 4] ++ le s.gateway ++
    [6, 4] ++ le s.dns ++ [255]

theorem reply_options (s : Server) (m : Mem) (o : Nat) (ty : UInt8) :
    bytesAt (setValues s (setOptions m o ty) o) (o + 2) 32 = optionBytes s ty := by
  simp only [bytesAt, optionBytes, List.range, List.range.loop, List.map_cons, List.map_nil, List.cons_append,
    List.nil_append, setValues, setOptions, st32, st16, store, Nat.add_assoc, Nat.reduceAdd, Nat.add_left_cancel_iff,
    Nat.reduceEqDiff, ↓reduceIte, Nat.add_eq_left, Nat.reducePow, Nat.div_div_eq_div_mul, Nat.reduceMul, Nat.div_one]

/-- The options lie apart from the header. -/
def Apart (m : Mem) (h : Nat) : Prop := options m h + 34 ≤ h ∨ h + 248 ≤ options m h

theorem reply_type (s : Server) (m : Mem) (o : Nat) (ty : UInt8) :
    setValues s (setOptions m o ty) o (o + 2) = ty := by
  have := congrArg (fun l => l[0]?) (reply_options s m o ty)
  simpa [bytesAt, optionBytes, List.range, List.range.loop] using this

/-- What both kinds of positive replies do to the memory. -/
structure Replied (s : Server) (m m' : Mem) (h ip : Nat) (ty : UInt8) : Prop where
  type : m' (options m h + 2) = ty
  yaddr : ip < 2 ^ 32 → ld32 m' (h + 16) = ip
  op : m' h = 2
  opts : bytesAt m' (options m h + 2) 32 = optionBytes s ty
  rest : ∀ x, x ≠ h → (x < h + 16 ∨ h + 20 ≤ x) → (x < options m h + 2 ∨ options m h + 34 ≤ x) → m' x = m x

theorem options_header (m : Mem) (h ip : Nat) (v : UInt8) :
    options (st32 (store m h v) (h + 16) ip) h = options m h ∧ options (st32 m (h + 16) ip) h = options m h := by
  constructor
  · apply options_congr
    intro i hi
    rw [st32_ne (by omega), store_ne (by omega)]
  · apply options_congr
    intro i hi
    rw [st32_ne (by omega)]

theorem setOptions_ne' {m : Mem} {o x : Nat} {ty : UInt8} (h : x < o + 2 ∨ o + 34 ≤ x) : setOptions m o ty x = m x := by
  simp only [setOptions]
  rw [store_ne (by omega), store_ne (by omega), store_ne (by omega), store_ne (by omega), store_ne (by omega),
    store_ne (by omega), store_ne (by omega), store_ne (by omega), store_ne (by omega), store_ne (by omega),
    store_ne (by omega), store_ne (by omega)]

theorem setValues_ne' {s : Server} {m : Mem} {o x : Nat} (h : x < o + 2 ∨ o + 34 ≤ x) : setValues s m o x = m x := by
  simp only [setValues]
  rw [st32_ne (by omega), st32_ne (by omega), st32_ne (by omega), st32_ne (by omega), st32_ne (by omega)]

theorem createAck_spec (s : Server) (m : Mem) (h ip : Nat) (ha : Apart m h) :
    Replied s m (createAck s m h ip) h ip 5 := by
  unfold Apart at ha
  have e : createAck s m h ip = setValues s (setOptions (st32 (store m h 2) (h + 16) ip) (options m h) 5) (options m h) := by
    simp only [createAck, (options_header m h ip 2).1]
  rw [e]
  refine ⟨reply_type .., fun hip => ?_, ?_, reply_options .., fun x h1 h2 h3 => ?_⟩
  · rw [ld32_congr (m := st32 (store m h 2) (h + 16) ip) (fun i hi => by
      rw [setValues_ne (by omega), setOptions_ne (by omega)]), ld32_st32 _ _ _ hip]
  · rw [setValues_ne (by omega), setOptions_ne (by omega), st32_ne (by omega), store_eq]
  · rw [setValues_ne' h3, setOptions_ne' h3, st32_ne (by omega), store_ne h1]

theorem offer_spec (s : Server) (m : Mem) (h ip : Nat) (ha : Apart m h) :
    Replied s m (offer s (st32 m (h + 16) ip) h) h ip 2 := by
  unfold Apart at ha
  have e : offer s (st32 m (h + 16) ip) h =
      setValues s (setOptions (store (st32 m (h + 16) ip) h 2) (options m h) 2) (options m h) := by
    simp only [offer, (options_header m h ip 2).2]
  rw [e]
  refine ⟨reply_type .., fun hip => ?_, ?_, reply_options .., fun x h1 h2 h3 => ?_⟩
  · rw [ld32_congr (m := st32 m (h + 16) ip) (fun i hi => by
      rw [setValues_ne (by omega), setOptions_ne (by omega), store_ne (by omega)]), ld32_st32 _ _ _ hip]
  · rw [setValues_ne (by omega), setOptions_ne (by omega), store_eq]
  · rw [setValues_ne' h3, setOptions_ne' h3, store_ne h1, st32_ne (by omega)]

theorem setNack_spec (m : Mem) (o : Nat) : setNack m o (o + 2) = 6 := by
  unfold setNack; rw [store_ne (by omega), store_eq]

/-! Leases. -/

/-- An offer or an acknowledgement: the client, the address, the time. -/
def grant (x : (Mem × Nat × Nat) × (Mem × Bool)) : Option (List UInt8 × Nat × Nat) :=
  let o := options x.1.1 x.1.2.1
  if x.2.2 = true ∧ (x.2.1 (o + 2) = 2 ∨ x.2.1 (o + 2) = 5) then
    some (client x.1.1 o, ld32 x.2.1 (x.1.2.1 + 16), x.1.2.2)
  else none

abbrev Log := List (List UInt8 × Nat × Nat)

/-- The table and the log of grants agree. -/
structure LogInv (exp : Nat) (ips : List Nat) (s : Server) (log : Log) (now : Nat) : Prop where
  inv : Inv ips.length exp s.table
  sips : s.ips = ips
  sexp : s.exp = exp
  nd : ips.Nodup
  small : ∀ a ∈ ips, a < 2 ^ 32
  le : ∀ c a t, (c, a, t) ∈ log → t ≤ now
  fwd : ∀ c a t, (c, a, t) ∈ log →
    (∃ i v, look s.table c = some (i, v) ∧ ips[i]? = some a ∧ t ≤ v) ∨ t + exp < now
  bwd : ∀ c i v, look s.table c = some (i, v) → ∃ a, ips[i]? = some a ∧ (c, a, v) ∈ log

/-- What the reply to a message must be, given the grants so far. -/
structure Facts (exp : Nat) (ips : List Nat) (log : Log) (m : Mem) (h t : Nat) (m' : Mem) (b : Bool) : Prop where
  exclusive : ∀ c a t₁ c' t', grant ((m, h, t), (m', b)) = some (c, a, t₁) → (c', a, t') ∈ log → c' ≠ c → t' + exp < t
  listed : ∀ c a t₁, grant ((m, h, t), (m', b)) = some (c, a, t₁) → a ∈ ips
  keptOffer : ∀ a t', (client m (options m h), a, t') ∈ log → t ≤ t' + exp → isDiscover m h = true →
    b = true ∧ m' (options m h + 2) = 2 ∧ ld32 m' (h + 16) = a
  keptAck : ∀ a t', (client m (options m h), a, t') ∈ log → t ≤ t' + exp → isRequest m h = true →
    b = true ∧ if ld32 m (options m h + 14) = a then m' (options m h + 2) = 5 ∧ ld32 m' (h + 16) = a
      else m' (options m h + 2) = 6
  refused : isDiscover m h = true → b = false → ∀ a ∈ ips, ∃ c' t', (c', a, t') ∈ log ∧ t ≤ t' + exp
  unknown : isRequest m h = true → (∀ a t', (client m (options m h), a, t') ∉ log) → b = false
  acked : b = true → m' (options m h + 2) = 5 → isRequest m h = true ∧ ld32 m' (h + 16) = ld32 m (options m h + 14)
  offered : b = true → m' (options m h + 2) = 2 → isDiscover m h = true

theorem young_spec (t exp v : Nat) : young t exp v = true ↔ t ≤ v + exp := by
  rw [← fresh_eq_young]; simp [Expiring.fresh]

theorem discover_request {m : Mem} {h : Nat} (hd : isDiscover m h = true) : isRequest m h = false := by
  simp only [isDiscover, isRequest, decide_eq_true_eq, decide_eq_false_iff_not] at *
  rw [hd.1]; rintro ⟨h1, _⟩; exact absurd h1 (by decide)

/-- A grant of `a` to `c`, when the table then maps `c` to the cell of `a`. -/
theorem step_granted {exp : Nat} {ips : List Nat} {s : Server} {log : Log} {now : Nat} (L : LogInv exp ips s log now)
    {m m' : Mem} {h t i a : Nat} {tb : Table (List UInt8)} (hn : now ≤ t)
    (hg : grant ((m, h, t), (m', true)) = some (client m (options m h), a, t))
    (hi : ips[i]? = some a) (inv' : Inv ips.length exp tb)
    (hl : look tb (client m (options m h)) = some (i, t))
    (hold : ∀ c' j v, c' ≠ client m (options m h) → look s.table c' = some (j, v) →
      look tb c' = some (j, v) ∨ v + exp < t)
    (hnew : ∀ c' x, c' ≠ client m (options m h) → look tb c' = some x → look s.table c' = some x)
    (hself : ∀ j v, look s.table (client m (options m h)) = some (j, v) → j = i) :
    LogInv exp ips { s with table := tb } (log ++ [(client m (options m h), a, t)]) t ∧
    (∀ c' t', (c', a, t') ∈ log → c' ≠ client m (options m h) → t' + exp < t) := by
  have L' : LogInv exp ips { s with table := tb } (log ++ [(client m (options m h), a, t)]) t := by
    refine ⟨inv', L.sips, L.sexp, L.nd, L.small, ?_, ?_, ?_⟩
    · intro c a' t' hm
      rcases List.mem_append.1 hm with hm | hm
      · exact le_trans (L.le _ _ _ hm) hn
      · simp only [List.mem_singleton, Prod.mk.injEq] at hm; omega
    · intro c a' t' hm
      rcases List.mem_append.1 hm with hm | hm
      · rcases L.fwd _ _ _ hm with ⟨j, v, h1, h2, h3⟩ | h1
        · by_cases hc : c = client m (options m h)
          · subst hc
            have := hself j v h1
            subst this
            exact .inl ⟨j, t, hl, h2, le_trans (L.le _ _ _ hm) hn⟩
          · rcases hold c j v hc h1 with h4 | h4
            · exact .inl ⟨j, v, h4, h2, h3⟩
            · exact .inr (by omega)
        · exact .inr (by omega)
      · simp only [List.mem_singleton, Prod.mk.injEq] at hm
        obtain ⟨rfl, rfl, rfl⟩ := hm
        exact .inl ⟨i, _, hl, hi, le_refl _⟩
    · intro c j v hlk
      by_cases hc : c = client m (options m h)
      · subst hc
        rw [hl] at hlk
        simp only [Option.some.injEq, Prod.mk.injEq] at hlk
        obtain ⟨rfl, rfl⟩ := hlk
        exact ⟨a, hi, by simp⟩
      · obtain ⟨a', h1, h2⟩ := L.bwd c j v (hnew c _ hc hlk)
        exact ⟨a', h1, List.mem_append_left _ h2⟩
  refine ⟨L', fun c' t' hm hc => ?_⟩
  rcases L'.fwd c' a t' (List.mem_append_left _ hm) with ⟨j, v, h1, h2, _⟩ | h1
  · exfalso
    have hj : j = i := by
      have hj1 : j < ips.length := by
        by_contra hno
        rw [List.getElem?_eq_none (by omega)] at h2; cases h2
      exact (List.getElem?_inj hj1 L.nd).1 (h2.trans hi.symm)
    subst hj
    exact hc (look_inj inv' h1 hl)
  · exact h1

/-- A step that leaves the table's entries alone and grants nothing. -/
theorem step_same {exp : Nat} {ips : List Nat} {s : Server} {log : Log} {now : Nat} (L : LogInv exp ips s log now)
    {t : Nat} {tb : Table (List UInt8)} (hn : now ≤ t) (inv' : Inv ips.length exp tb)
    (h : ∀ c, look tb c = look s.table c) : LogInv exp ips { s with table := tb } log t := by
  refine ⟨inv', L.sips, L.sexp, L.nd, L.small, fun c a t' hm => le_trans (L.le _ _ _ hm) hn, ?_, ?_⟩
  · intro c a t' hm
    rcases L.fwd _ _ _ hm with ⟨j, v, h1, h2, h3⟩ | h1
    · exact .inl ⟨j, v, (h c).trans h1, h2, h3⟩
    · exact .inr (by omega)
  · intro c i v hl
    exact L.bwd c i v ((h c).symm.trans hl)

theorem LogInv.ip {exp : Nat} {ips : List Nat} {s : Server} {log : Log} {now : Nat} (L : LogInv exp ips s log now)
    {i : Nat} (hi : i < ips.length) : s.ips[i]? = some ips[i] ∧ ips[i]? = some ips[i] ∧ ips[i] < 2 ^ 32 := by
  rw [L.sips]
  exact ⟨List.getElem?_eq_getElem hi, List.getElem?_eq_getElem hi, L.small _ (List.getElem_mem hi)⟩

theorem grant_of {m m' : Mem} {h t : Nat} {ty : UInt8} (hty : ty = 2 ∨ ty = 5) (h1 : m' (options m h + 2) = ty) :
    grant ((m, h, t), (m', true)) = some (client m (options m h), ld32 m' (h + 16), t) := by
  unfold grant
  rw [if_pos]
  refine ⟨rfl, ?_⟩
  rcases hty with rfl | rfl
  · exact .inl h1
  · exact .inr h1

theorem grant_false (m m' : Mem) (h t : Nat) : grant ((m, h, t), (m', false)) = none := by
  simp [grant]

/-- One message. -/
theorem serve_step {exp : Nat} {ips : List Nat} {s : Server} {log : Log} {now : Nat} (L : LogInv exp ips s log now)
    {m : Mem} {h t : Nat} (hn : now ≤ t) (ht : t < timeMax) (ha : Apart m h) :
    ∃ s' m' b, serve s m h t = some (s', m', b) ∧
      (∃ tb, s' = { s with table := tb }) ∧
      LogInv exp ips s' (log ++ (grant ((m, h, t), (m', b))).toList) t ∧ Facts exp ips log m h t m' b := by
  -- a client in the table has its logged address
  have known : ∀ i v a t', look s.table (client m (options m h)) = some (i, v) →
      (client m (options m h), a, t') ∈ log → t ≤ t' + exp → ips[i]? = some a := by
    intro i v a t' h1 h2 h3
    rcases L.fwd _ _ _ h2 with ⟨j, w, h4, h5, _⟩ | h4
    · rw [h1] at h4
      simp only [Option.some.injEq, Prod.mk.injEq] at h4
      rw [h4.1]; exact h5
    · omega
  have absent : look s.table (client m (options m h)) = none → ∀ a t', (client m (options m h), a, t') ∈ log →
      ¬ t ≤ t' + exp := by
    intro h1 a t' h2 h3
    rcases L.fwd _ _ _ h2 with ⟨j, w, h4, _, _⟩ | h4
    · rw [h1] at h4; cases h4
    · omega
  have refreshed : ∀ index, s.table.map.get (client m (options m h)) = some index →
      ∃ (v : Nat) (tb : Table (List UInt8)) (hi : index < ips.length), look s.table (client m (options m h)) = some (index, v) ∧
        s.table.refresh t index = some tb ∧ Inv ips.length exp tb ∧
        (∀ m', grant ((m, h, t), (m', true)) = some (client m (options m h), ips[index], t) →
          LogInv exp ips { s with table := tb } (log ++ [(client m (options m h), ips[index], t)]) t ∧
          ∀ c' t', (c', ips[index], t') ∈ log → c' ≠ client m (options m h) → t' + exp < t) := by
    intro index hg
    obtain ⟨v, _, hl⟩ := look_of_get L.inv hg
    have hi := (look_key L.inv hl).2
    obtain ⟨tb, h1, h2, _, _, h3⟩ := refresh_spec L.inv hl ht
    refine ⟨v, tb, hi, hl, h1, h2, fun m' hgr => ?_⟩
    refine step_granted L hn hgr (L.ip hi).2.1 h2 (by rw [h3, if_pos rfl]) ?_ ?_ ?_
    · intro c' j w hc hl'; exact .inl (by rw [h3, if_neg hc]; exact hl')
    · intro c' x hc hl'; rw [h3, if_neg hc] at hl'; exact hl'
    · intro j w hl'; rw [hl] at hl'; simp only [Option.some.injEq, Prod.mk.injEq] at hl'; exact hl'.1.symm
  by_cases hd : isDiscover m h = true
  · have hr := discover_request hd
    cases hg : s.table.map.get (client m (options m h)) with
    | some index =>
      obtain ⟨v, tb, hi, hl, h1, h2, h3⟩ := refreshed index hg
      have R := offer_spec s m h ips[index] ha
      have hgr := grant_of (t := t) (.inl rfl) R.type
      rw [R.yaddr (L.ip hi).2.2] at hgr
      obtain ⟨L', hex⟩ := h3 _ hgr
      refine ⟨{ s with table := tb }, _, true, ?_, ⟨tb, rfl⟩, by rw [hgr]; exact L', ?_⟩
      · simp only [serve, hd, ↓reduceIte, discover, hg, h1, (L.ip hi).1, Option.bind_eq_bind, Option.bind_some]
      · refine ⟨?_, ?_, ?_, ?_, ?_, ?_, ?_, ?_⟩
        · intro c a t₁ c' t' hg' hm hc
          rw [hgr] at hg'; cases hg'; exact hex c' t' hm hc
        · intro c a t₁ hg'; rw [hgr] at hg'; cases hg'; exact List.getElem_mem hi
        · intro a t' hm hle _
          have := known _ _ a t' hl hm hle
          rw [(L.ip hi).2.1] at this; cases this
          exact ⟨rfl, R.type, R.yaddr (L.ip hi).2.2⟩
        · intro a t' _ _ hr'; rw [hr] at hr'; cases hr'
        · intro _ hb; cases hb
        · intro hr'; rw [hr] at hr'; cases hr'
        · intro _ h5; rw [R.type] at h5; exact absurd h5 (by decide)
        · intro _ _; exact hd
    | none =>
      have hln := look_none_of_get hg
      obtain ⟨tb, r, h1, h2, h3⟩ := insert_spec L.inv hln ht
      rcases h3 with ⟨rfl, h4, h5⟩ | ⟨i, rfl, hi, h4, h5, h6⟩
      · refine ⟨{ s with table := tb }, m, false, ?_, ⟨tb, rfl⟩, ?_, ?_⟩
        · simp only [serve, hd, ↓reduceIte, discover, hg, h1, Option.bind_eq_bind, Option.bind_some]
        · rw [grant_false]
          simpa using step_same L hn h2 h4
        · refine ⟨?_, ?_, ?_, ?_, ?_, ?_, ?_, ?_⟩
          · intro c a t₁ c' t' hg'; rw [grant_false] at hg'; cases hg'
          · intro c a t₁ hg'; rw [grant_false] at hg'; cases hg'
          · intro a t' hm hle; exact absurd hle (absent hln a t' hm)
          · intro a t' _ _ hr'; rw [hr] at hr'; cases hr'
          · intro _ _ a hmem
            obtain ⟨i, hi, rfl⟩ := List.mem_iff_getElem.1 hmem
            obtain ⟨k', v, h7, h8⟩ := h5 i hi
            obtain ⟨a', h9, h10⟩ := L.bwd _ _ _ h7
            rw [List.getElem?_eq_getElem hi] at h9; cases h9
            exact ⟨k', v, h10, (young_spec ..).1 h8⟩
          · intro hr'; rw [hr] at hr'; cases hr'
          · intro hb; cases hb
          · intro hb; cases hb
      · have R := offer_spec s m h ips[i] ha
        have hgr := grant_of (t := t) (.inl rfl) R.type
        rw [R.yaddr (L.ip hi).2.2] at hgr
        obtain ⟨L', hex⟩ := step_granted (tb := tb) L hn hgr (L.ip hi).2.1 h2 h5
          (by
            intro c' j v hc hl'
            by_cases hji : j = i
            · subst hji
              have := h4 c' v hl'
              have hy : ¬ t ≤ v + exp := fun hle => by rw [(young_spec t exp v).2 hle] at this; cases this
              exact .inr (by omega)
            · exact .inl (by rw [h6 c' hc, hl']; simp [Option.filter, hji]))
          (by
            intro c' x hc hl'
            rw [h6 c' hc] at hl'
            exact (Option.filter_eq_some_iff.1 hl').1)
          (by intro j v hl'; rw [hln] at hl'; cases hl')
        refine ⟨{ s with table := tb }, _, true, ?_, ⟨tb, rfl⟩, by rw [hgr]; exact L', ?_⟩
        · simp only [serve, hd, ↓reduceIte, discover, hg, h1, (L.ip hi).1, Option.bind_eq_bind, Option.bind_some]
        · refine ⟨?_, ?_, ?_, ?_, ?_, ?_, ?_, ?_⟩
          · intro c a t₁ c' t' hg' hm hc
            rw [hgr] at hg'; cases hg'; exact hex c' t' hm hc
          · intro c a t₁ hg'; rw [hgr] at hg'; cases hg'; exact List.getElem_mem hi
          · intro a t' hm hle; exact absurd hle (absent hln a t' hm)
          · intro a t' _ _ hr'; rw [hr] at hr'; cases hr'
          · intro _ hb; cases hb
          · intro hr'; rw [hr] at hr'; cases hr'
          · intro _ h5; rw [R.type] at h5; exact absurd h5 (by decide)
          · intro _ _; exact hd
  · by_cases hr : isRequest m h = true
    · cases hg : s.table.map.get (client m (options m h)) with
      | none =>
        have hln := look_none_of_get hg
        refine ⟨s, m, false, ?_, ⟨s.table, rfl⟩, ?_, ?_⟩
        · simp only [serve, if_neg hd, if_pos hr, request, hg]
        · rw [grant_false]
          simpa using step_same (tb := s.table) L hn L.inv fun _ => rfl
        · refine ⟨?_, ?_, ?_, ?_, ?_, ?_, ?_, ?_⟩
          · intro c a t₁ c' t' hg'; rw [grant_false] at hg'; cases hg'
          · intro c a t₁ hg'; rw [grant_false] at hg'; cases hg'
          · intro a t' hm hle; exact absurd hle (absent hln a t' hm)
          · intro a t' hm hle; exact absurd hle (absent hln a t' hm)
          · intro hd'; exact absurd hd' hd
          · intro _ _; rfl
          · intro hb; cases hb
          · intro hb; cases hb
      | some index =>
        obtain ⟨v, tb, hi, hl, h1, h2, h3⟩ := refreshed index hg
        by_cases hq : ips[index] = ld32 m (options m h + 14)
        · have R := createAck_spec s m h ips[index] ha
          have hgr := grant_of (t := t) (.inr rfl) R.type
          rw [R.yaddr (L.ip hi).2.2] at hgr
          obtain ⟨L', hex⟩ := h3 _ hgr
          refine ⟨{ s with table := tb }, _, true, ?_, ⟨tb, rfl⟩, by rw [hgr]; exact L', ?_⟩
          · simp only [serve, if_neg hd, if_pos hr, request, hg, (L.ip hi).1, if_pos hq, h1, Option.bind_eq_bind,
              Option.bind_some]
          · refine ⟨?_, ?_, ?_, ?_, ?_, ?_, ?_, ?_⟩
            · intro c a t₁ c' t' hg' hm hc
              rw [hgr] at hg'; cases hg'; exact hex c' t' hm hc
            · intro c a t₁ hg'; rw [hgr] at hg'; cases hg'; exact List.getElem_mem hi
            · intro a t' _ _ hd'; exact absurd hd' hd
            · intro a t' hm hle _
              have := known _ _ a t' hl hm hle
              rw [(L.ip hi).2.1] at this; cases this
              rw [if_pos hq.symm]
              exact ⟨rfl, R.type, R.yaddr (L.ip hi).2.2⟩
            · intro hd'; exact absurd hd' hd
            · intro _ hno
              obtain ⟨a, _, h5⟩ := L.bwd _ _ _ hl
              exact absurd h5 (hno a v)
            · intro _ _; exact ⟨hr, by rw [R.yaddr (L.ip hi).2.2, hq]⟩
            · intro _ h5; rw [R.type] at h5; exact absurd h5 (by decide)
        · have hN := setNack_spec m (options m h)
          have hgr : grant ((m, h, t), (setNack m (options m h), true)) = none := by
            unfold grant
            rw [if_neg]
            rintro ⟨_, h5 | h5⟩
            · simp only [hN] at h5; exact absurd h5 (by decide)
            · simp only [hN] at h5; exact absurd h5 (by decide)
          refine ⟨s, setNack m (options m h), true, ?_, ⟨s.table, rfl⟩, ?_, ?_⟩
          · simp only [serve, if_neg hd, if_pos hr, request, hg, (L.ip hi).1, if_neg hq, Option.bind_eq_bind,
              Option.bind_some]
          · rw [hgr]
            simpa using step_same (tb := s.table) L hn L.inv fun _ => rfl
          · refine ⟨?_, ?_, ?_, ?_, ?_, ?_, ?_, ?_⟩
            · intro c a t₁ c' t' hg'; rw [hgr] at hg'; cases hg'
            · intro c a t₁ hg'; rw [hgr] at hg'; cases hg'
            · intro a t' _ _ hd'; exact absurd hd' hd
            · intro a t' hm hle _
              have := known _ _ a t' hl hm hle
              rw [(L.ip hi).2.1] at this; cases this
              rw [if_neg (fun he => hq he.symm)]
              exact ⟨rfl, hN⟩
            · intro hd'; exact absurd hd' hd
            · intro _ hno
              obtain ⟨a, _, h5⟩ := L.bwd _ _ _ hl
              exact absurd h5 (hno a v)
            · intro _ h5; rw [hN] at h5; exact absurd h5 (by decide)
            · intro _ h5; rw [hN] at h5; exact absurd h5 (by decide)
    · refine ⟨s, m, false, ?_, ⟨s.table, rfl⟩, ?_, ?_⟩
      · simp only [serve, if_neg hd, if_neg hr]
      · rw [grant_false]
        simpa using step_same (tb := s.table) L hn L.inv fun _ => rfl
      · refine ⟨?_, ?_, ?_, ?_, ?_, ?_, ?_, ?_⟩
        · intro c a t₁ c' t' hg'; rw [grant_false] at hg'; cases hg'
        · intro c a t₁ hg'; rw [grant_false] at hg'; cases hg'
        · intro a t' _ _ hd'; exact absurd hd' hd
        · intro a t' _ _ hr'; exact absurd hr' hr
        · intro hd'; exact absurd hd' hd
        · intro hr'; exact absurd hr' hr
        · intro hb; cases hb
        · intro hb; cases hb

/-- A sequence of messages, with what holds of each reply given the grants before it. -/
theorem run_spec {exp : Nat} {ips : List Nat} : ∀ (msgs : List (Mem × Nat × Nat)) {s : Server} {log : Log} {now : Nat},
    LogInv exp ips s log now → (∀ x ∈ msgs, now ≤ x.2.2 ∧ x.2.2 < timeMax ∧ Apart x.1 x.2.1) →
    msgs.Pairwise (fun x y => x.2.2 ≤ y.2.2) →
    ∃ s' rs, run s msgs = some (s', rs) ∧ rs.length = msgs.length ∧
      ∀ j x y, msgs[j]? = some x → rs[j]? = some y →
        Facts exp ips (log ++ ((msgs.zip rs).take j).filterMap grant) x.1 x.2.1 x.2.2 y.1 y.2 := by
  intro msgs
  induction msgs with
  | nil =>
    intro s log now L _ _
    exact ⟨s, [], rfl, rfl, fun j x y hx => by simp at hx⟩
  | cons x rest ih =>
    intro s log now L hall hp
    obtain ⟨m, h, t⟩ := x
    obtain ⟨hn, ht, ha⟩ := hall _ (List.mem_cons_self)
    obtain ⟨s1, m', b, h1, _, L1, F1⟩ := serve_step L hn ht ha
    rw [List.pairwise_cons] at hp
    obtain ⟨s2, rs, h2, h3, h4⟩ := ih L1
      (fun y hy => ⟨hp.1 y hy, (hall y (List.mem_cons_of_mem _ hy)).2⟩) hp.2
    refine ⟨s2, (m', b) :: rs, ?_, by simp [h3], ?_⟩
    · simp only [run, h1, h2, Option.bind_eq_bind, Option.bind_some]
    · intro j x y hx hy
      cases j with
      | zero =>
        simp only [List.getElem?_cons_zero, Option.some.injEq] at hx hy
        subst hx; subst hy
        simpa using F1
      | succ j =>
        rw [List.getElem?_cons_succ] at hx hy
        have := h4 j x y hx hy
        rw [List.zip_cons_cons, List.take_succ_cons, List.filterMap_cons]
        cases hgr : grant ((m, h, t), (m', b)) with
        | none => rw [hgr] at this; simpa using this
        | some g => rw [hgr] at this; simpa using this

end Verif.Nf.Dhcp
