/- Properties C03 and C04: the hash map. -/
import Verif.Env.HashMapProofs

namespace Verif.Props
open Verif.HashMap
open HashMapSpec (Legal answers final State Pre next keyAt)

/-- C03: for every hash function of the key bytes (all keys may collide), every
capacity map_alloc accepts, every key size, and every sequence of calls that meet
their preconditions (with the program writing its own memory in between), the map
runs without undefined behaviour and map_get answers exactly what the contract's
finite map prescribes. -/
theorem C03_hash_map_refines_finite_map (hash : HashFn) (hf : List UInt8 → Nat)
    (hh : ∀ mem a n, hash mem a n = hf ((List.range n).map fun i => mem (a + i)))
    (ks capacity : Nat) (hc : capacity * 64 ≤ 2 ^ 64 - 1) (mem : Mem) (ops : List Op)
    (hl : Legal ks capacity ⟨mem, [], []⟩ (ops.map callOf)) :
    ∃ m m', alloc ks capacity = some m ∧
      run hash (m, mem) ops = some (m', answers ks ⟨mem, [], []⟩ (ops.map callOf)) := by
  obtain ⟨m, hm, r⟩ := alloc_rep hf ks capacity hc mem
  obtain ⟨m', h1, _⟩ := run_refines (hash := hash) hh ops r hl
  exact ⟨m, _, hm, h1⟩

/-- The hash function in memory.h is an instance. -/
example : ∃ hf : List UInt8 → Nat, ∀ (mem : Mem) a n,
    (Memory.hash mem a n).toNat = hf ((List.range n).map fun i => mem (a + i)) :=
  ⟨fun bs => (Memory.hash (fun i => bs.getD i 0) 0 bs.length).toNat, memory_hash_ok⟩

/-- A legal history: three keys in a table of four, a removal, a re-insertion of a
removed key with a new value, and a store outside the held keys. -/
example : Legal 1 3 ⟨fun a => UInt8.ofNat a, [], []⟩
    ([Op.set 1 10, .set 2 20, .get 1, .remove 1, .get 2, .write 1 2, .get 1, .set 5 30, .set 7 40].map callOf) := by
  simp [Legal, Pre, next, callOf, keyAt, GMap.get, GMap.set, GMap.remove]

/-- The same history under a hash function that makes every key collide. -/
example : ∃ m m', alloc 1 3 = some m ∧ run (fun _ _ _ => 3) (m, fun a => UInt8.ofNat a)
    [.set 1 10, .set 2 20, .get 1, .remove 1, .get 2, .write 1 2, .get 1] =
      some (m', [none, none, some (some 10), none, some (some 20), none, some (some 20)]) :=
  ⟨_, _, rfl, rfl⟩

/-- The contract's finite map is "last set not removed since": what a get returns
after a set or a removal. -/
theorem C03_contract_map_laws (m : GMap (List UInt8) Nat) (k k' : List UInt8) (v : Nat) :
    (m.set k v).get k = some v ∧ (m.remove k).get k = none ∧
    (k' ≠ k → (m.set k v).get k' = m.get k' ∧ (m.remove k).get k' = m.get k') := by
  refine ⟨by simp [GMap.get_set], by simp [GMap.get_remove], fun h => ?_⟩
  constructor
  · rw [GMap.get_set, if_neg (Ne.symm h)]
  · rw [GMap.get_remove, if_neg (Ne.symm h)]

/-- C04 (size): the table size is the least power of two not below the capacity,
0 for 0, for every capacity map_alloc accepts; it fits in 64 bits and so does the
byte size of the table (32 bytes per item). -/
theorem C04_real_capacity (capacity : Nat) (hc : capacity * 64 ≤ 2 ^ 64 - 1) :
    ∃ rc, getRealCapacity capacity = some rc ∧ (capacity = 0 → rc = 0) ∧
      (capacity ≠ 0 → (∃ r, rc = 2 ^ r) ∧ capacity ≤ rc ∧ ∀ q, capacity ≤ 2 ^ q → rc ≤ 2 ^ q) ∧
      rc * 32 < 2 ^ 64 := by
  by_cases h0 : capacity = 0
  · subst h0; exact ⟨0, rfl, fun _ => rfl, fun h => absurd rfl h, by decide⟩
  · obtain ⟨r, h1, h2, h3, h4⟩ := getRealCapacity_spec capacity (by omega) h0
    refine ⟨2 ^ r, h1, fun h => absurd h h0, fun _ => ⟨⟨r, rfl⟩, h3, ?_⟩, ?_⟩
    · intro q hq
      by_contra hlt
      push Not at hlt
      have hqr : q < r := by
        by_contra hge
        exact absurd (Nat.pow_le_pow_right (by omega : 0 < 2) (by omega : r ≤ q)) (by omega)
      exact absurd (h4 q hqr) (by omega)
    · cases r with
      | zero => omega
      | succ r =>
        have := h4 r (by omega)
        rw [pow_succ]; omega

example : getRealCapacity 1 = some 1 ∧ getRealCapacity 5 = some 8 ∧ getRealCapacity 8 = some 8 := by decide

/-- C04 (free slot): in every table reachable by a legal history, a map_set that
meets its precondition (fewer keys than the capacity) stores the new key in a slot
that was free and leaves the key, hash and value of every other slot unchanged. -/
theorem C04_set_finds_free_slot (hash : HashFn) (hf : List UInt8 → Nat)
    (hh : ∀ mem a n, hash mem a n = hf ((List.range n).map fun i => mem (a + i)))
    (ks capacity : Nat) (hc : capacity * 64 ≤ 2 ^ 64 - 1) (mem : Mem) (ops : List Op)
    (hl : Legal ks capacity ⟨mem, [], []⟩ (ops.map callOf))
    (m0 m : Map) (mem1 : Mem) (rs : List (Option (Option Nat)))
    (h0 : alloc ks capacity = some m0) (h1 : run hash (m0, mem) ops = some ((m, mem1), rs))
    (kp v : Nat) (hpre : Pre ks capacity (final ks ⟨mem, [], []⟩ (ops.map callOf)) (.set kp v)) :
    ∃ m', HashMap.set hash mem1 m kp v = some m' ∧ m'.items.length = m.items.length ∧
      ∃ s : Nat, (∃ it, m.items[s]? = some it ∧ it.keyAddr = 0) ∧
        (∃ it, m'.items[s]? = some it ∧ it.keyAddr = kp ∧ it.value = v) ∧
        ∀ j ≠ s, m'.items[j]?.map (fun it => (it.keyAddr, it.value, it.keyHash)) =
          m.items[j]?.map (fun it => (it.keyAddr, it.value, it.keyHash)) := by
  obtain ⟨m0', hm, r⟩ := alloc_rep hf ks capacity hc mem
  obtain rfl : m0' = m0 := by rw [hm] at h0; cases h0; rfl
  obtain ⟨m', h2, r2⟩ := run_refines (hash := hash) hh ops r hl
  rw [h1] at h2
  cases h2
  obtain ⟨m'', h3, r3, s, h4, h5, h6⟩ := set_rep (hash := hash) hh r2 kp v hpre
  have hlen : m''.items.length = m.items.length := by
    have e1 := r3.inv.len
    have e2 := r2.inv.len
    have : m''.capacity = m.capacity := by
      simp only [HashMap.set, Option.bind_eq_bind] at h3
      cases hs : setLoop m.capacity kp (hash (final ks ⟨mem, [], []⟩ (ops.map callOf)).mem kp m.keySize) v
          m.capacity 0 m.items with
      | none => rw [hs] at h3; cases h3
      | some x => rw [hs] at h3; cases h3; rfl
    rw [e1, e2, this]
  exact ⟨m'', h3, hlen, s, h4, h5, h6⟩

/-- The hypotheses are met by a third insertion in a table of capacity 3. -/
example : ∃ m0 m, alloc 1 3 = some m0 ∧
    run (fun _ _ _ => 3) (m0, fun a => UInt8.ofNat a) [.set 1 10, .set 2 20] = some (m, [none, none]) ∧
    Pre 1 3 (final 1 ⟨fun a => UInt8.ofNat a, [], []⟩ ([Op.set 1 10, .set 2 20].map callOf)) (.set 3 30) :=
  ⟨_, _, rfl, rfl, by simp [Pre, final, next, callOf, keyAt, GMap.get, GMap.set]⟩

end Verif.Props
