/-
C78: what the annotations of /repo/env/src/structs/map.c state (the predicate `mapp` and the invariants of the loops) is
true of the code.
-/
import Verif.Env.MapPredProofs
import Verif.Props.Buckets

set_option autoImplicit false

namespace Verif.Props
open Verif.MapPred
open Verif.Buckets
open Verif.ProofLib (loopFp isPow2)
open Verif.HashMap (Item Map HashFn Inv Rep dist slot passes getLoop setLoop removeLoop clearLoop)
open HashMapSpec (Legal final)

/-- C78, contracts: `map_alloc`, `map_get`, `map_set` and `map_remove` keep `mapp`, from every state in which it holds. -/
theorem C78_contracts (hash : HashFn) (hf : List UInt8 → Nat)
    (hh : ∀ mem a n, hash mem a n = hf ((List.range n).map fun i => mem (a + i))) (mem : Mem) (ks capacity : Nat) :
    -- map_alloc, map.c:531-533
    (capacity * 64 ≤ 2 ^ 64 - 1 → ∃ m, HashMap.alloc ks capacity = some m ∧ mapp hf mem m ks capacity [] []) ∧
    ∀ (m : Map) (mv ma : GMap (List UInt8) Nat), mapp hf mem m ks capacity mv ma → ∀ kp : Nat, kp ≠ 0 →
      -- map_get, map.c:1025-1035
      HashMap.get hash mem m kp = some (mv.get (bytesAt mem kp ks)) ∧
      -- map_set, map.c:1481-1488
      (∀ v : Nat, mv.length < capacity → mv.get (bytesAt mem kp ks) = none → ma.get (bytesAt mem kp ks) = none →
        ∃ m', HashMap.set hash mem m kp v = some m' ∧
          mapp hf mem m' ks capacity (mv.set (bytesAt mem kp ks) v) (ma.set (bytesAt mem kp ks) kp)) ∧
      -- map_remove, map.c:1785-1793
      (mv.get (bytesAt mem kp ks) ≠ none → ma.get (bytesAt mem kp ks) = some kp →
        ∃ m', HashMap.remove hash mem m kp = some m' ∧
          mapp hf mem m' ks capacity (mv.remove (bytesAt mem kp ks)) (ma.remove (bytesAt mem kp ks))) := by
  have hrep : ∀ (m : Map) (mv ma : GMap (List UInt8) Nat), mapp hf mem m ks capacity mv ma →
      Rep hf ks capacity m ⟨mem, mv, ma⟩ := by
    intro m mv ma h
    obtain ⟨h1, h2, inv⟩ := (mapp_iff m ks capacity).1 h
    refine ⟨h1, ?_, inv⟩
    rcases (capacityOk_iff capacity m.capacity).1 h2 with h | ⟨_, h⟩
    · exact Or.inl h
    · exact Or.inr h
  refine ⟨fun hc => ?_, fun m mv ma hm kp hkp => ⟨?_, ?_, ?_⟩⟩
  · obtain ⟨m, h1, r⟩ := HashMap.alloc_rep hf ks capacity hc mem
    refine ⟨m, h1, (mapp_iff m ks capacity).2 ⟨r.keySize, ?_, r.inv⟩⟩
    by_cases h0 : capacity = 0
    · subst h0
      have : m.capacity = 0 := by
        have e : HashMap.alloc ks 0 = some ⟨[], ks, 0⟩ := rfl
        rw [e] at h1; cases h1; rfl
      exact (capacityOk_iff 0 m.capacity).2 (Or.inl ⟨rfl, this⟩)
    · rcases r.cap with ⟨h, _⟩ | h
      · exact absurd h h0
      · exact (capacityOk_iff capacity m.capacity).2 (Or.inr ⟨h0, h⟩)
  · exact HashMap.get_rep hh (hrep m mv ma hm) kp
  · intro v h1 h2 h3
    have r := hrep m mv ma hm
    obtain ⟨m', h4, r', _⟩ := HashMap.set_rep hh r kp v ⟨hkp, h1, h2, h3⟩
    refine ⟨m', h4, (mapp_iff m' ks capacity).2 ⟨r'.keySize, ?_, r'.inv⟩⟩
    have : m'.capacity = m.capacity := by
      simp only [HashMap.set, Option.bind_eq_bind] at h4
      obtain ⟨_, _, h4⟩ := Option.bind_eq_some_iff.1 h4
      cases h4; rfl
    rw [this]; exact ((mapp_iff m ks capacity).1 hm).2.1
  · intro h1 h2
    have r := hrep m mv ma hm
    obtain ⟨m', h4, r'⟩ := HashMap.remove_rep hh r kp ⟨hkp, h1, h2⟩
    refine ⟨m', h4, (mapp_iff m' ks capacity).2 ⟨r'.keySize, ?_, r'.inv⟩⟩
    have : m'.capacity = m.capacity := by
      simp only [HashMap.remove, Option.bind_eq_bind] at h4
      obtain ⟨_, _, h4⟩ := Option.bind_eq_some_iff.1 h4
      cases h4; rfl
    rw [this]; exact ((mapp_iff m ks capacity).1 hm).2.1

/-- C78, histories: `mapp` holds after every sequence of calls that meet their contracts, with the program writing its own
memory in between, for the finite maps that the contracts prescribe. -/
theorem C78_always (hash : HashFn) (hf : List UInt8 → Nat)
    (hh : ∀ mem a n, hash mem a n = hf ((List.range n).map fun i => mem (a + i))) (ks capacity : Nat)
    (hc : capacity * 64 ≤ 2 ^ 64 - 1) (mem : Mem) (ops : List HashMap.Op)
    (hl : Legal ks capacity ⟨mem, [], []⟩ (ops.map HashMap.callOf)) :
    ∃ m m' mem' rs, HashMap.alloc ks capacity = some m ∧ HashMap.run hash (m, mem) ops = some ((m', mem'), rs) ∧
      mapp hf mem' m' ks capacity (final ks ⟨mem, [], []⟩ (ops.map HashMap.callOf)).values
        (final ks ⟨mem, [], []⟩ (ops.map HashMap.callOf)).addrs := by
  obtain ⟨m, hm, r⟩ := HashMap.alloc_rep hf ks capacity hc mem
  obtain ⟨m', h1, r'⟩ := HashMap.run_refines (hash := hash) hh ops r hl
  refine ⟨m, m', _, _, hm, h1, (mapp_iff m' ks capacity).2 ⟨r'.keySize, ?_, r'.inv⟩⟩
  have hcap : ∀ (ops : List HashMap.Op) (m m' : Map) (mem mem' : Mem) (rs : List (Option (Option Nat))),
      HashMap.run hash (m, mem) ops = some ((m', mem'), rs) → m'.capacity = m.capacity := by
    intro ops
    induction ops with
    | nil => intro m m' mem mem' rs h; simp only [HashMap.run, Option.some.injEq, Prod.mk.injEq] at h; rw [← h.1.1]
    | cons op ops ih =>
      intro m m' mem mem' rs h
      simp only [HashMap.run, Option.bind_eq_bind] at h
      obtain ⟨⟨⟨m1, mem1⟩, r1⟩, h1, h2⟩ := Option.bind_eq_some_iff.1 h
      obtain ⟨⟨⟨m2, mem2⟩, r2⟩, h3, h4⟩ := Option.bind_eq_some_iff.1 h2
      simp only [Option.some.injEq, Prod.mk.injEq] at h4
      rw [← h4.1.1, ih _ _ _ _ _ h3]
      cases op with
      | get kp =>
        simp only [HashMap.step, Option.bind_eq_bind] at h1
        obtain ⟨_, _, h1⟩ := Option.bind_eq_some_iff.1 h1
        cases h1; rfl
      | set kp v =>
        simp only [HashMap.step, HashMap.set, Option.bind_eq_bind] at h1
        obtain ⟨m3, h5, h1⟩ := Option.bind_eq_some_iff.1 h1
        obtain ⟨_, _, h5⟩ := Option.bind_eq_some_iff.1 h5
        cases h5; cases h1; rfl
      | remove kp =>
        simp only [HashMap.step, HashMap.remove, Option.bind_eq_bind] at h1
        obtain ⟨m3, h5, h1⟩ := Option.bind_eq_some_iff.1 h1
        obtain ⟨_, _, h5⟩ := Option.bind_eq_some_iff.1 h5
        cases h5; cases h1; rfl
      | write a v => cases h1; rfl
  rw [hcap ops _ _ _ _ _ h1]
  obtain ⟨m1, e1, e2⟩ := (C78_contracts hash hf hh mem ks capacity).1 hc
  rw [hm] at e1; cases e1
  exact ((mapp_iff m ks capacity).1 e2).2.1

/-! ### The loops -/

section
variable {hf : List UInt8 → Nat} {mem : Mem} {ks : Nat}

private theorem upTo_slot (opts : List (Option Key)) (P : Option Key → Prop) (n h i : Nat) (hn : 0 < n) :
    upTo (byLoopNthProp none opts P n (loopFp h n)) i ↔ ∀ e < i, P (opts.getD (slot n h e) none) := by
  rw [upTo_iff]
  have : ∀ e : Nat, byLoopNthProp none opts P n (loopFp h n) e ↔ P (opts.getD (slot n h e) none) := by
    intro e
    rw [byLoopNthProp, nthProp, loopFp_nat h n hn, ← Int.natCast_add, loopFp_nat _ _ hn, nth_nat, slot, Nat.add_comm]
  simp only [this]

private theorem keyOf_getD (items : List Item) (j : Nat) (it : Item) (h : items[j]? = some it) :
    (items.map (keyOf mem ks)).getD j none = keyOf mem ks it := by
  rw [List.getD_eq_getElem?_getD, List.getElem?_map, h]; rfl

private theorem upTo_succ (opts : List (Option Key)) (P : Option Key → Prop) (n h i : Nat) (hn : 0 < n)
    (h1 : upTo (byLoopNthProp none opts P n (loopFp h n)) i) (h2 : P (opts.getD (slot n h i) none)) :
    upTo (byLoopNthProp none opts P n (loopFp h n)) (i + 1) := by
  rw [upTo_slot _ _ _ _ _ hn] at h1 ⊢
  intro e he
  by_cases hei : e = i
  · rw [hei]; exact h2
  · exact h1 e (by omega)

private theorem full_opts (opts : List (Option Key)) (h : ∀ o ∈ opts, o ≠ none) : optsSize opts = opts.length := by
  induction opts with
  | nil => rfl
  | cons o os ih =>
    rw [optsSize, if_neg (h o (by simp)), ih (fun x hx => h x (by simp [hx])), List.length_cons]
    omega

private theorem core_chain {items items' : List Item} {opts : List (Option Key)} {mv ma : GMap Key Nat}
    (h : items'.map (fun it => (it.keyAddr, it.keyHash, it.value)) = items.map fun it => (it.keyAddr, it.keyHash, it.value))
    (c : opts = items.map (keyOf mem ks) ∧ Core hf mem ks items mv ma) :
    opts = items'.map (keyOf mem ks) ∧ Core hf mem ks items' mv ma := by
  have e1 := congrArg (List.map Prod.fst) h
  have e2 := congrArg (List.map fun x => x.2.1) h
  have e3 := congrArg (List.map fun x => x.2.2) h
  have e4 := congrArg List.length h
  simp only [List.map_map, Function.comp_def, List.length_map] at e1 e2 e3 e4
  have := (core_iff ..).2 c
  rw [← core_iff, e4, e1, e2, e3]
  exact this

private theorem set_chain_same (items : List Item) (j : Nat) (it : Item) (h : items[j]? = some it) (c : Nat) :
    (items.set j { it with chain := c }).map (fun it => (it.keyAddr, it.keyHash, it.value)) =
      items.map fun it => (it.keyAddr, it.keyHash, it.value) := by
  apply List.ext_getElem?
  intro n
  rw [List.getElem?_map, List.getElem?_map, List.getElem?_set]
  split
  · rename_i e; subst e
    have := HashMap.getElem?_lt h
    rw [if_pos this, h]; rfl
  · rfl

private theorem set_chain_chns (items : List Item) (j : Nat) (it : Item) (c : Nat) :
    (items.set j { it with chain := c }).map (fun it => (it.chain : Int)) =
      (items.map fun it => (it.chain : Int)).set j c := by
  rw [List.map_set]

/-- C78, the loop of `map_alloc` (map.c:553-590), whatever the memory contained before. -/
theorem C78_alloc_loop (hf : List UInt8 → Nat) (mem : Mem) (keySize capacity rc : Nat) (hcap : capacityOk capacity rc)
    (items0 : List Item) (h0 : items0.length = rc) :
    -- on entry
    allocInv rc 0 items0 ∧
    -- preserved
    (∀ (n : Nat) (items : List Item), allocInv rc n items → n < rc → ∃ items', allocInv rc (n + 1) items' ∧
      ∀ k, clearLoop (k + 1) n items = clearLoop k (n + 1) items') ∧
    -- at the end
    ∀ items, allocInv rc rc items → mapp hf mem ⟨items, keySize, rc⟩ keySize capacity [] [] := by
  refine ⟨⟨by omega, h0, ?_, ?_⟩, ?_, ?_⟩
  · rw [take_nat]; simp
  · rw [take_nat]; simp
  · rintro n items ⟨h1, h2, h3, h4⟩ hn
    rw [take_nat] at h3 h4
    have hl : n < items.length := by omega
    refine ⟨items.set n { items[n] with keyAddr := 0, chain := 0 }, ⟨by omega, by simp [h2], ?_, ?_⟩, ?_⟩
    · rw [take_nat, List.take_add_one, List.take_set, List.set_eq_of_length_le (by simp)]
      intro a ha
      rw [List.map_append, List.mem_append] at ha
      rcases ha with ha | ha
      · exact h3 a ha
      · rw [List.getElem?_set, if_pos rfl, if_pos hl] at ha
        simpa using ha
    · rw [take_nat, List.take_add_one, List.take_set, List.set_eq_of_length_le (by simp)]
      intro a ha
      rw [List.map_append, List.mem_append] at ha
      rcases ha with ha | ha
      · exact h4 a ha
      · rw [List.getElem?_set, if_pos rfl, if_pos hl] at ha
        simpa using ha
    · intro k
      rw [clearLoop, List.getElem?_eq_getElem hl]
      rfl
  · rintro items ⟨_, h2, h3, h4⟩
    rw [take_nat, List.take_of_length_le (by omega)] at h3 h4
    have hz : ∀ (j : Nat) (it : Item), items[j]? = some it → it.keyAddr = 0 ∧ it.chain = 0 := by
      intro j it hj
      have := List.mem_of_getElem? hj
      exact ⟨h3 _ (List.mem_map.2 ⟨it, this, rfl⟩), h4 _ (List.mem_map.2 ⟨it, this, rfl⟩)⟩
    refine (mapp_iff _ keySize capacity).2 ⟨rfl, hcap, h2, ?_, ?_, ?_, ?_, ?_, GMap.distinct_nil, GMap.distinct_nil⟩
    · intro j it hj h0; exact absurd (hz j it hj).1 h0
    · intro j j' it it' hj _ h0; exact absurd (hz j it hj).1 h0
    · intro j it hj
      rw [(hz j it hj).2]
      symm
      rw [List.countP_eq_zero]
      intro j' _
      simp only [passes]
      cases hj' : items[j']? with
      | none => simp
      | some it' => simp [(hz j' it' hj').1]
    · intro k v
      simp only [GMap.get, reduceCtorEq, false_iff]
      rintro ⟨j, it, h, h0, _⟩; exact h0 (hz j it h).1
    · intro k v
      simp only [GMap.get, reduceCtorEq, false_iff]
      rintro ⟨j, it, h, h0, _⟩; exact h0 (hz j it h).1

/-- C78, the loop of `map_get` (map.c:1040-1122): the invariant holds on entry; from a state in which it holds, an
iteration either returns what the contract says or leads to a state in which it holds; and at the end the key is not
there, as the function returns. -/
theorem C78_get_loop (hf : List UInt8 → Nat) (mem : Mem) (m : Map) (keySize capacity : Nat)
    (mv ma : GMap (List UInt8) Nat) (kp : Nat) (hm : mapp hf mem m keySize capacity mv ma) :
    getInv hf mem m keySize capacity mv ma kp (hf (bytesAt mem kp keySize)) 0 ∧
    (∀ i < m.capacity, getInv hf mem m keySize capacity mv ma kp (hf (bytesAt mem kp keySize)) i →
      (∀ k, getLoop mem m.keySize m.capacity kp (hf (bytesAt mem kp keySize)) m.items (k + 1) i =
        some (mv.get (bytesAt mem kp keySize))) ∨
      (∀ k, getLoop mem m.keySize m.capacity kp (hf (bytesAt mem kp keySize)) m.items (k + 1) i =
        getLoop mem m.keySize m.capacity kp (hf (bytesAt mem kp keySize)) m.items k (i + 1)) ∧
        getInv hf mem m keySize capacity mv ma kp (hf (bytesAt mem kp keySize)) (i + 1)) ∧
    (getInv hf mem m keySize capacity mv ma kp (hf (bytesAt mem kp keySize)) m.capacity →
      mv.get (bytesAt mem kp keySize) = none) := by
  obtain ⟨hks, hcap, inv⟩ := (mapp_iff m keySize capacity).1 hm
  have hdist : ∀ j < m.capacity, ∃ e < m.capacity, slot m.capacity (hf (bytesAt mem kp keySize)) e = j :=
    fun j hj => ⟨dist m.capacity _ j, HashMap.dist_lt (by omega) _ _, HashMap.slot_dist hj⟩
  refine ⟨?_, ?_, ?_⟩
  · obtain ⟨kaddrs, hashes, chains, values, rc, opts, bs, h1, h2, h3, h4⟩ := hm
    exact ⟨kaddrs, hashes, chains, values, rc, opts, bs, h1, h2, h3, by omega, rfl, h4, trivial⟩
  · rintro i hi ⟨kaddrs, hashes, chains, values, rc, opts, bs, h1, h2, h3, h4, h5, h6, h7⟩
    have hraw := h1
    obtain ⟨r1, r2, rfl, rfl, rfl, rfl, r3, _⟩ := h1
    subst r2
    have hcore := h2
    rw [r3] at hcore
    obtain ⟨rfl, c⟩ := (core_iff ..).1 hcore
    obtain ⟨p, hp, hcp⟩ : ∃ p ≤ 63, m.capacity = 2 ^ p := by
      rcases (capacityOk_iff capacity m.capacity).1 hcap with ⟨_, h⟩ | ⟨_, p, hp, h, _⟩
      · omega
      · exact ⟨p, hp, h⟩
    have hn : 0 < m.capacity := by omega
    set kh := hf (bytesAt mem kp keySize) with hkh
    have hs := HashMap.slot_lt hn kh i
    obtain ⟨it, hit⟩ : ∃ it, m.items[slot m.capacity kh i]? = some it := ⟨_, List.getElem?_eq_getElem (inv.len ▸ hs)⟩
    have hidx : HashMap.loop kh i m.capacity = slot m.capacity kh i := by
      rw [hcp]; exact HashMap.loop_eq p kh i hp (hcp ▸ hi)
    have hseen := (upTo_slot _ _ _ _ _ hn).1 h7
    have hmem : ∀ a, Memory.memEq mem a kp m.keySize = true ↔ bytesAt mem a keySize = bytesAt mem kp keySize := by
      intro a; rw [r1]; exact Memory.memEq_iff ..
    -- the key is not in this slot
    have hcont : keyOf mem keySize it ≠ some (bytesAt mem kp keySize) →
        getInv hf mem m keySize capacity mv ma kp kh (i + 1) := by
      intro hne
      refine ⟨_, _, _, _, _, _, bs, hraw, h2, h3, by omega, h5, h6, upTo_succ _ _ _ _ _ hn h7 ?_⟩
      rw [keyOf_getD _ _ it hit]
      exact Ne.symm hne
    by_cases hA : it.keyAddr ≠ 0 ∧ it.keyHash = kh
    · by_cases hB : Memory.memEq mem it.keyAddr kp m.keySize = true
      · left
        intro k
        rw [getLoop, hidx, hit]
        simp only [Option.bind_eq_bind, Option.bind_some]
        rw [if_pos hA, if_pos hB, (inv.vals _ it.value).2 ⟨_, it, hit, hA.1, (hmem _).1 hB, rfl⟩]
      · right
        refine ⟨fun k => ?_, hcont ?_⟩
        · rw [getLoop, hidx, hit]
          simp only [Option.bind_eq_bind, Option.bind_some]
          rw [if_pos hA, if_neg hB]
        · rw [Ne, keyOf_some]
          rintro ⟨_, hk⟩
          exact hB ((hmem _).2 hk)
    · have hne : keyOf mem keySize it ≠ some (bytesAt mem kp keySize) := by
        rw [Ne, keyOf_some]
        rintro ⟨h0, hk⟩
        exact hA ⟨h0, by rw [inv.hash _ it hit h0, hk]⟩
      by_cases hC : it.chain = 0
      · left
        intro k
        rw [getLoop, hidx, hit]
        simp only [Option.bind_eq_bind, Option.bind_some]
        rw [if_neg hA, if_pos hC]
        congr 1
        symm
        cases hg : mv.get (bytesAt mem kp keySize) with
        | none => rfl
        | some v =>
          exfalso
          obtain ⟨j, it', hj, h0, hk, _⟩ := (inv.vals _ _).1 hg
          have hjl : j < m.capacity := inv.len ▸ HashMap.getElem?_lt hj
          have hhj : it'.keyHash = kh := by rw [inv.hash j it' hj h0, hk]
          have hge : i < dist m.capacity kh j := by
            by_contra hle
            rcases Nat.lt_or_ge (dist m.capacity kh j) i with h | h
            · have := hseen _ h
              rw [HashMap.slot_dist hjl, keyOf_getD _ _ it' hj] at this
              exact this ((keyOf_some ..).2 ⟨h0, hk⟩).symm
            · have e : dist m.capacity kh j = i := by omega
              rw [← e, HashMap.slot_dist hjl, hj] at hit
              cases hit
              exact hne ((keyOf_some ..).2 ⟨h0, hk⟩)
          have hpass : passes m.capacity m.items (slot m.capacity kh i) j = true := by
            simp [passes, hj, h0, hhj, HashMap.dist_slot hi, hge]
          have := HashMap.countP_pos_of hjl hpass
          rw [inv.chain _ it hit] at hC
          omega
      · right
        refine ⟨fun k => ?_, hcont hne⟩
        rw [getLoop, hidx, hit]
        simp only [Option.bind_eq_bind, Option.bind_some]
        rw [if_neg hA, if_neg hC]
  · rintro ⟨kaddrs, hashes, chains, values, rc, opts, bs, ⟨r1, r2, rfl, rfl, rfl, rfl, r3, _⟩, h2, h3, h4, h5, h6, h7⟩
    subst r2
    rw [r3] at h2
    obtain ⟨rfl, c⟩ := (core_iff ..).1 h2
    cases hg : mv.get (bytesAt mem kp keySize) with
    | none => rfl
    | some v =>
      exfalso
      obtain ⟨j, it', hj, h0, hk, _⟩ := (inv.vals _ _).1 hg
      have hjl : j < m.capacity := inv.len ▸ HashMap.getElem?_lt hj
      obtain ⟨e, he, hse⟩ := hdist j hjl
      have := (upTo_slot _ _ _ _ _ (by omega)).1 h7 e he
      rw [hse, keyOf_getD _ _ it' hj] at this
      exact this ((keyOf_some ..).2 ⟨h0, hk⟩).symm

private theorem mapIdx_same (items : List Item) (f : Nat → Item → Nat) (P : Nat → Prop) [DecidablePred P] :
    (items.mapIdx fun j it => if P j then { it with chain := f j it } else it).map
        (fun it => (it.keyAddr, it.keyHash, it.value)) =
      items.map fun it => (it.keyAddr, it.keyHash, it.value) := by
  apply List.ext_getElem?
  intro n
  rw [List.getElem?_map, List.getElem?_map, List.getElem?_mapIdx]
  cases items[n]? with
  | none => rfl
  | some it =>
    simp only [Option.map_some, Option.some.injEq]
    split <;> rfl

/-- C78, the loop of `map_set` (map.c:1498-1612): the invariant holds on entry; from a state in which it holds, an
iteration either puts the key, with `mapp` of the new contents, or leads to a state in which it holds; and the loop does
not get past its last iteration. -/
theorem C78_set_loop (hf : List UInt8 → Nat) (mem : Mem) (m : Map) (keySize capacity : Nat)
    (mv ma : GMap (List UInt8) Nat) (kp v : Nat)
    -- what is known before the loop (map.c:1482-1487, 1491-1493)
    (kaddrs hashes : List Nat) (chains : List Int) (values : List Nat) (rc : Nat) (keyOpts : List (Option (List UInt8)))
    (buckets : List (Bucket (List UInt8))) (hraw : mappRaw m kaddrs hashes chains values keySize rc)
    (hcore : mappCore hf mem keySize rc kaddrs hashes values keyOpts mv ma)
    (hsync : bucketsKeysInsync hf rc chains buckets keyOpts) (hcap : capacityOk capacity rc)
    (hkp : kp ≠ 0) (hroom : mv.length < capacity) (hnew : mv.get (bytesAt mem kp keySize) = none) :
    setInv hf mem m keySize rc mv ma keyOpts buckets (loopFp (hf (bytesAt mem kp keySize)) rc) kp 0 ∧
    (∀ (i : Nat) (items : List Item), i < rc →
      setInv hf mem { m with items := items } keySize rc mv ma keyOpts buckets (loopFp (hf (bytesAt mem kp keySize)) rc)
        kp i →
      (∃ items', (∀ k, setLoop rc kp (hf (bytesAt mem kp keySize)) v (k + 1) i items = some items') ∧
        mapp hf mem { m with items := items' } keySize capacity (mv.set (bytesAt mem kp keySize) v)
          (ma.set (bytesAt mem kp keySize) kp)) ∨
      ∃ items', (∀ k, setLoop rc kp (hf (bytesAt mem kp keySize)) v (k + 1) i items =
          setLoop rc kp (hf (bytesAt mem kp keySize)) v k (i + 1) items') ∧
        setInv hf mem { m with items := items' } keySize rc mv ma keyOpts buckets
          (loopFp (hf (bytesAt mem kp keySize)) rc) kp (i + 1)) ∧
    ∀ items, ¬ setInv hf mem { m with items := items } keySize rc mv ma keyOpts buckets
      (loopFp (hf (bytesAt mem kp keySize)) rc) kp rc := by
  obtain ⟨hc0, p, hp, hcp, hle⟩ : capacity ≠ 0 ∧ ∃ p ≤ 63, rc = 2 ^ p ∧ capacity ≤ 2 ^ p := by
    rcases (capacityOk_iff capacity rc).1 hcap with ⟨h, _⟩ | h
    · omega
    · exact h
  have hn : 0 < rc := by omega
  have hpow : rc ≤ 2 ^ 63 := hcp ▸ Nat.pow_le_pow_right (by omega) hp
  have hp2 : isPow2 rc 63 ≠ none := (isPow2_iff 63 rc).2 ⟨p, hp, hcp⟩
  obtain ⟨s1, s2, s3, s4, s5⟩ := hsync
  set key := bytesAt mem kp keySize with hkey
  set kh := hf key with hkh
  have hstart : loopFp (kh : Int) rc = ((kh % rc : Nat) : Int) := loopFp_nat kh rc hn
  have hsl : kh % rc < rc := Nat.mod_lt _ hn
  -- how far the partial chain goes
  have hlen : ∀ i < rc, (if loopFp ((kh % rc : Nat) + (i : Int)) rc < ((kh % rc : Nat) : Int)
      then (rc : Int) + loopFp ((kh % rc : Nat) + (i : Int)) rc - ((kh % rc : Nat) : Int)
      else loopFp ((kh % rc : Nat) + (i : Int)) rc - ((kh % rc : Nat) : Int)) = (i : Int) := by
    intro i hi
    rw [← Int.natCast_add, loopFp_nat _ _ hn]
    have := HashMap.mod_cases (a := kh % rc + i) (n := rc) (by omega)
    split at this <;> rw [this] <;> split <;> omega
  have hfull : ∀ items, ¬ setInv hf mem { m with items := items } keySize rc mv ma keyOpts buckets
      (loopFp (kh : Int) rc) kp rc := by
    rintro items ⟨_, _, _, _, _, ⟨_, _, _, _, _, _, c7, _, c8, _⟩, _, _, _, h7, _⟩
    have := full_opts keyOpts (by
      intro o ho
      obtain ⟨j, hj⟩ := List.getElem?_of_mem ho
      have hjl : j < rc := by
        rw [← c7]; by_contra h; rw [List.getElem?_eq_none (by omega)] at hj; cases hj
      have := (upTo_slot _ _ _ _ _ hn).1 h7 (dist rc kh j) (HashMap.dist_lt hn _ _)
      rw [HashMap.slot_dist hjl, List.getD_eq_getElem?_getD, hj] at this
      exact this)
    omega
  refine ⟨⟨kaddrs, hashes, chains, values, hraw, hcore, hp2, hkp, by omega, trivial, ?_, s2, s3, s4, s5⟩, ?_, hfull⟩
  · rw [hstart, Nat.cast_zero, show ((kh % rc : Nat) : Int) + 0 = ((kh % rc : Nat) : Int) + ((0 : Nat) : Int) from rfl,
      hlen 0 hn]
    have := C77_partial_chains.2.1 (bucketsGetChns buckets) ((kh % rc : Nat) : Int) (by omega)
      (by rw [(C77_lengths.2.1 buckets).2]; omega)
    rw [Nat.cast_zero, this, s1]
  · rintro i items hi ⟨kaddrs', hashes', chains', values', ⟨r1, r2, rfl, rfl, rfl, rfl, r3, _⟩, c1, _, _, _, h7, x1, _⟩
    simp only at r1 r2 r3 c1 x1
    rw [r3] at c1
    have hcc := (core_iff ..).1 c1
    obtain ⟨ho, c⟩ := hcc
    rw [hstart, hlen i hi] at x1
    have hs := HashMap.slot_lt hn kh i
    obtain ⟨it, hit⟩ : ∃ it, items[slot rc kh i]? = some it := ⟨_, List.getElem?_eq_getElem (r3 ▸ hs)⟩
    have hidx : HashMap.loop kh i rc = slot rc kh i := by
      rw [hcp]; exact HashMap.loop_eq p kh i hp (hcp ▸ hi)
    have hopt : keyOpts.getD (slot rc kh i) none = keyOf mem keySize it := by
      rw [ho]; exact keyOf_getD _ _ it hit
    -- the counters
    have hchn : ∀ (j : Nat) (it : Item), items[j]? = some it → ∃ x : Int, (bucketsGetChns buckets)[j]? = some x ∧
        0 ≤ x ∧ x ≤ rc ∧ (it.chain : Int) = x + if dist rc kh j < i then 1 else 0 := by
      intro j it hj
      have hjl : j < rc := r3 ▸ HashMap.getElem?_lt hj
      have hcl : (bucketsGetChns buckets).length = rc := by rw [(C77_lengths.2.1 buckets).2, s5]
      have hx := List.getElem?_eq_getElem (l := bucketsGetChns buckets) (i := j) (by omega)
      refine ⟨_, hx, ?_, ?_, ?_⟩
      · exact C77_counters.2.1 buckets _ (List.getElem_mem _)
      · have := (C77_counters.2.2.2.2.2.1 0 buckets (j : Int) s2 (by omega) (by omega)).2.2
        rw [nth_nat, List.getD_eq_getElem?_getD, hx, s5] at this
        exact this
      · have := congrArg (fun l => l[j]?) x1
        simp only [List.getElem?_map, hj, Option.map_some] at this
        rw [add_get, hcl, hx, weight_short hsl hjl hi] at this
        simp only [Option.map_some, Option.some.injEq] at this
        rw [this]
        congr 1
        unfold dist
        split <;> rfl
    by_cases hz : it.keyAddr = 0
    · -- the free slot
      left
      refine ⟨items.set (slot rc kh i) { it with keyAddr := kp, keyHash := kh, value := v }, fun k => ?_, ?_⟩
      · rw [setLoop, hidx]
        rw [hit]
        simp only [Option.bind_eq_bind, Option.bind_some, if_pos hz]
      · -- the items before the loop
        let orig := items.mapIdx fun j it => if dist rc kh j < i then { it with chain := it.chain - 1 } else it
        have hoget : ∀ j : Nat, orig[j]? = items[j]?.map fun it =>
            if dist rc kh j < i then { it with chain := it.chain - 1 } else it := by
          intro j; simp only [orig, List.getElem?_mapIdx]
        have holen : orig.length = rc := by simp only [orig, List.length_mapIdx]; exact r3.symm
        obtain ⟨hoo, co⟩ := core_chain (items' := orig) (mapIdx_same items (fun _ it => it.chain - 1) _) ⟨ho, c⟩
        have hoch : orig.map (fun it => (it.chain : Int)) = bucketsGetChns buckets := by
          apply List.ext_getElem?
          intro j
          rw [List.getElem?_map, hoget]
          cases hj : items[j]? with
          | none =>
            rw [List.getElem?_eq_none (by
              rw [(C77_lengths.2.1 buckets).2, s5, r3]
              by_contra h; rw [List.getElem?_eq_getElem (by omega)] at hj; cases hj)]
            rfl
          | some it =>
            obtain ⟨x, hx, h0, _, he⟩ := hchn j it hj
            rw [hx]
            simp only [Option.map_some, Option.some.injEq]
            split
            · rename_i hd; rw [if_pos hd] at he; dsimp only; omega
            · rename_i hd; rw [if_neg hd] at he; omega
        have invo : Inv hf mem keySize (2 ^ p) orig mv ma := by
          have := insync_inv co buckets ⟨hoch, s2, by rw [holen]; exact s3, by rw [← hoo]; exact s4, by rw [holen]; exact s5⟩
          rw [holen, hcp] at this
          exact this
        have hitems : items = orig.mapIdx fun j it => if dist (2 ^ p) kh j < i then
            { it with chain := (it.chain + 1) % 2 ^ 64 } else it := by
          apply List.ext_getElem?
          intro j
          rw [List.getElem?_mapIdx, hoget, ← hcp]
          cases hj : items[j]? with
          | none => rfl
          | some it =>
            obtain ⟨x, hx, h0, h1, he⟩ := hchn j it hj
            simp only [Option.map_some, Option.some.injEq]
            by_cases hd : dist rc kh j < i
            · rw [if_pos hd] at he
              simp only [if_pos hd]
              have e : (it.chain - 1 + 1) % 2 ^ 64 = it.chain := by
                rw [Nat.mod_eq_of_lt (by omega)]; omega
              rw [e]
            · simp only [if_neg hd]
        have hfree : ∀ it : Item, orig[slot (2 ^ p) kh i]? = some it → it.keyAddr = 0 := by
          intro it' h
          rw [← hcp, hoget, hit, Option.map_some, Option.some.injEq] at h
          rw [← h]
          split <;> exact hz
        have hinv := HashMap.inv_set (v := v) hp invo hkp (hcp ▸ hi) hfree hnew
        have hspec := HashMap.setLoop_spec p kp kh v hp orig (hcp ▸ holen) i (hcp ▸ hi) (by
          intro e he it' h
          have := (upTo_slot _ _ _ _ _ hn).1 h7 e he
          rw [hoo, keyOf_getD _ _ it' (hcp ▸ h)] at this
          intro h0
          exact this (by simp [keyOf, h0])) hfree 0 i (by omega)
        rw [← hitems] at hspec
        obtain ⟨k, hk⟩ : ∃ k, 2 ^ p - i = k + 1 := ⟨_, (Nat.succ_pred_eq_of_pos (Nat.sub_pos_of_lt (hcp ▸ hi))).symm⟩
        rw [hk, setLoop, ← hcp, hidx] at hspec
        rw [hit] at hspec
        simp only [Option.bind_eq_bind, Option.bind_some, if_pos hz, Option.some.injEq] at hspec
        rw [hspec]
        refine (mapp_iff _ keySize capacity).2 ⟨r1, ?_, ?_⟩
        · show capacityOk capacity m.capacity
          rw [r2]; exact hcap
        · show Inv hf mem keySize m.capacity _ _ _
          rw [r2, hcp]; exact hinv
    · -- an occupied slot
      right
      obtain ⟨x, hx, hx0, hx1, hxe⟩ := hchn _ it hit
      have hover : (it.chain + 1) % 2 ^ 64 = it.chain + 1 := Nat.mod_eq_of_lt (by split at hxe <;> omega)
      have hbusy : keyOpts.getD (slot rc kh i) none ≠ none := by
        rw [hopt, keyOf, if_neg hz]; simp
      have h7' := upTo_succ _ _ _ _ _ hn h7 hbusy
      have hcore' := core_chain (set_chain_same items _ it hit (it.chain + 1)) ⟨ho, c⟩
      have hraw' : mappRaw { m with items := items.set (slot rc kh i) { it with chain := it.chain + 1 } } _ _ _ _ keySize rc :=
        ⟨r1, r2, rfl, rfl, rfl, rfl, by simp [r3], by simp [r3], by simp [r3], by simp [r3], by simp [r3]⟩
      have hcore'' := (core_iff ..).2 hcore'
      rw [List.length_set, ← r3] at hcore''
      refine ⟨items.set (slot rc kh i) { it with chain := it.chain + 1 }, fun k => ?_, ?_⟩
      · rw [setLoop, hidx]
        rw [hit]
        simp only [Option.bind_eq_bind, Option.bind_some, if_neg hz, hover]
      · by_cases hlast : i + 1 = rc
        · -- all slots would be occupied
          exfalso
          rw [hlast] at h7'
          have hl := hcore''.2.2.2.2.2.2.1
          have h8 := hcore''.2.2.2.2.2.2.2.2.1
          have := full_opts keyOpts (by
            intro o ho'
            obtain ⟨j, hj⟩ := List.getElem?_of_mem ho'
            have hjl : j < rc := by
              rw [← hl]; by_contra h; rw [List.getElem?_eq_none (by omega)] at hj; cases hj
            have := (upTo_slot _ _ _ _ _ hn).1 h7' (dist rc kh j) (HashMap.dist_lt hn _ _)
            rw [HashMap.slot_dist hjl, List.getD_eq_getElem?_getD, hj] at this
            exact this)
          omega
        · refine ⟨_, _, _, _, hraw', hcore'', hp2, hkp, by omega, h7', ?_, s2, s3, s4, s5⟩
          rw [hstart, show (((i + 1 : Nat) : Nat) : Int) = ((i + 1 : Nat) : Int) from rfl, hlen (i + 1) (by omega)]
          have hcl : ((bucketsGetChns buckets).length : Int) = rc := by rw [(C77_lengths.2.1 buckets).2, s5]
          have := C77_partial_chains.2.2.2.2 0 _ (bucketsGetChns buckets) ((kh % rc : Nat) : Int) (i : Int) rc x1 hcl
            (by omega) (by omega) (by omega) (by omega)
          rw [← Int.natCast_add, loopFp_nat _ _ hn, update_nat, nth_nat] at this
          change (items.map fun it => (it.chain : Int)).set (slot rc kh i)
            ((items.map fun it => (it.chain : Int)).getD (slot rc kh i) 0 + 1) = _ at this
          rw [List.getD_eq_getElem?_getD, List.getElem?_map, hit] at this
          simp only [Option.map_some, Option.getD_some] at this
          rw [set_chain_chns]
          push_cast at this ⊢
          exact this

private theorem weight_rest {n j s d i : Nat} (hs : s < n) (hj : j < n) (hd : d < n) (hi : i ≤ d) :
    weight n j ((s + i) % n) (d - i) + (if (j + n - s) % n < i then 1 else 0) = weight n j s d := by
  have hq : (s + i) % n < n := Nat.mod_lt _ (by omega)
  rw [weight_short hq hj (by omega), weight_short hs hj hd]
  have h1 := HashMap.mod_cases (a := s + i) (n := n) (by omega)
  have h2 := HashMap.mod_cases (a := j + n - s) (n := n) (by omega)
  have h3 := HashMap.mod_cases (a := j + n - (s + i) % n) (n := n) (by omega)
  rw [h3, h2, h1]
  split <;> (repeat' split) <;> omega

private theorem dec_succ (c : Nat) (h : c < 2 ^ 64) : (c + 1 + (2 ^ 64 - 1)) % 2 ^ 64 = c := by omega

private theorem dec_pos (c : Nat) (h : c < 2 ^ 64) (h0 : 0 < c) : (c + (2 ^ 64 - 1)) % 2 ^ 64 = c - 1 := by omega

private theorem chain_lt {c rc : Nat} {x : Int} {b : Prop} [Decidable b] (h : (c : Int) + (if b then 1 else 0) = x)
    (h1 : x ≤ rc) (h2 : rc ≤ 2 ^ 63) : c < 2 ^ 64 := by
  split at h <;> omega

set_option maxHeartbeats 1000000 in
/-- C78, the loop of `map_remove` (map.c:1809-1926): the invariant holds on entry; from a state in which it holds, an
iteration either removes the key, with `mapp` of the new contents, or leads to a state in which it holds; and the loop
does not get past its last iteration. -/
theorem C78_remove_loop (hf : List UInt8 → Nat) (mem : Mem) (m : Map) (keySize capacity : Nat)
    (mv ma : GMap (List UInt8) Nat) (kp : Nat)
    -- what is known before the loop (map.c:1786-1791, 1797-1804)
    (kaddrs hashes : List Nat) (chains : List Int) (values : List Nat) (rc : Nat) (keyOpts : List (Option (List UInt8)))
    (buckets : List (Bucket (List UInt8))) (hraw : mappRaw m kaddrs hashes chains values keySize rc)
    (hcore : mappCore hf mem keySize rc kaddrs hashes values keyOpts mv ma)
    (hsync : bucketsKeysInsync hf rc chains buckets keyOpts) (hcap : capacityOk capacity rc)
    (hkp : kp ≠ 0) (hhas : mv.get (bytesAt mem kp keySize) ≠ none) :
    removeInv hf mem m keySize rc mv ma kaddrs hashes values keyOpts buckets (loopFp (hf (bytesAt mem kp keySize)) rc) kp
      (hf (bytesAt mem kp keySize)) 0 ∧
    (∀ (i : Nat) (items : List Item), i < rc →
      removeInv hf mem { m with items := items } keySize rc mv ma kaddrs hashes values keyOpts buckets
        (loopFp (hf (bytesAt mem kp keySize)) rc) kp (hf (bytesAt mem kp keySize)) i →
      (∃ items', (∀ k, removeLoop mem m.keySize rc kp (hf (bytesAt mem kp keySize)) (k + 1) i items = some items') ∧
        mapp hf mem { m with items := items' } keySize capacity (mv.remove (bytesAt mem kp keySize))
          (ma.remove (bytesAt mem kp keySize))) ∨
      ∃ items', (∀ k, removeLoop mem m.keySize rc kp (hf (bytesAt mem kp keySize)) (k + 1) i items =
          removeLoop mem m.keySize rc kp (hf (bytesAt mem kp keySize)) k (i + 1) items') ∧
        removeInv hf mem { m with items := items' } keySize rc mv ma kaddrs hashes values keyOpts buckets
          (loopFp (hf (bytesAt mem kp keySize)) rc) kp (hf (bytesAt mem kp keySize)) (i + 1)) ∧
    ∀ items, ¬ removeInv hf mem { m with items := items } keySize rc mv ma kaddrs hashes values keyOpts buckets
      (loopFp (hf (bytesAt mem kp keySize)) rc) kp (hf (bytesAt mem kp keySize)) rc := by
  have hraw0 := hraw
  obtain ⟨r1, r2, hka, hha, hva, hch, r3, _⟩ := hraw
  obtain ⟨s1, s2, s3, s4, s5⟩ := hsync
  have hcore0 := hcore
  rw [hka, hha, hva, r3] at hcore0
  obtain ⟨ho0, c0⟩ := (core_iff ..).1 hcore0
  set key := bytesAt mem kp keySize with hkey
  set kh := hf key with hkh
  -- the key is in the table
  obtain ⟨v0, hv0⟩ := Option.ne_none_iff_exists'.1 hhas
  obtain ⟨q, itq, hq, hq0, hqk, _⟩ := (c0.vals _ _).1 hv0
  have hql : q < rc := r3 ▸ HashMap.getElem?_lt hq
  have hn : 0 < rc := by omega
  obtain ⟨p, hp, hcp⟩ : ∃ p ≤ 63, rc = 2 ^ p := by
    rcases (capacityOk_iff capacity rc).1 hcap with ⟨_, h⟩ | ⟨_, p, hp, h, _⟩
    · omega
    · exact ⟨p, hp, h⟩
  have hpow : rc ≤ 2 ^ 63 := hcp ▸ Nat.pow_le_pow_right (by omega) hp
  have hp2 : isPow2 rc 63 ≠ none := (isPow2_iff 63 rc).2 ⟨p, hp, hcp⟩
  have hstart : loopFp (kh : Int) rc = ((kh % rc : Nat) : Int) := loopFp_nat kh rc hn
  have hsl : kh % rc < rc := Nat.mod_lt _ hn
  have ok := (ok_iff buckets).1 s2
  have hst := (startOnHash_iff hf buckets 0 rc hn).1 s3
  have hkeyq : (bucketsGetKeys buckets)[q]? = some (some key) := by
    rw [← s4, ho0]; exact (keyOf_get ..).2 ⟨itq, hq, hq0, hqk⟩
  obtain ⟨s, d, hmd, hsd⟩ := (keys_iff buckets ok q (by omega) key).1 hkeyq
  have hs : s = kh % rc := by
    have := hst s key d hmd
    rw [← hkh] at this
    omega
  have hd : d < rc := by have := ok.2.1 s key d hmd; omega
  subst hs
  have hchain : bucketsGetChain [] buckets key ((kh % rc : Nat) : Int) = d := by
    rw [bucketsGetChain, nth_nat, chainWithKey_eq _ (bucket_nodup buckets ok.1 _) key d hmd]
  have hrem := rem_chns buckets ok.1 key (kh % rc) d hmd
  have hsync0 : bucketsKeysInsync hf rc chains buckets keyOpts := ⟨s1, s2, s3, s4, s5⟩
  have hcl : (bucketsGetChns (bucketsRemoveKey key buckets)).length = rc := by
    rw [(C77_lengths.2.1 _).2, C77_lengths.2.2.1, s5]
  have hcl' : (bucketsGetChns buckets).length = rc := by rw [(C77_lengths.2.1 _).2, s5]
  refine ⟨⟨chains, hraw0, hcore, hp2, by omega, hkp, rfl, s4, ?_, ?_, trivial⟩, ?_, ?_⟩
  · rw [hstart, hchain]; omega
  · rw [hstart, hchain, s1, hrem, Nat.cast_zero, add_zero, sub_zero, loopFp_nat _ _ hn, Nat.mod_eq_of_lt hsl]
  · rintro i items hi ⟨chains', ⟨_, _, ka, ha, va, rfl, r3', _⟩, c1, _, _, _, _, _, hid, x1, h7⟩
    simp only at ka ha va r3' x1
    have c1' := c1
    rw [ka, ha, va, r3'] at c1
    obtain ⟨ho, c⟩ := (core_iff ..).1 c1
    rw [hstart, hchain] at hid
    have hid : i ≤ d := by omega
    rw [hstart, hchain, ← Int.natCast_add, loopFp_nat _ _ hn, show (d : Int) - (i : Int) = ((d - i : Nat) : Int) by omega] at x1
    have hsl' := HashMap.slot_lt hn kh i
    obtain ⟨it, hit⟩ : ∃ it, items[slot rc kh i]? = some it := ⟨_, List.getElem?_eq_getElem (r3' ▸ hsl')⟩
    have hidx : HashMap.loop kh i rc = slot rc kh i := by
      rw [hcp]; exact HashMap.loop_eq p kh i hp (hcp ▸ hi)
    have hopt : keyOpts.getD (slot rc kh i) none = keyOf mem keySize it := by
      rw [ho]; exact keyOf_getD _ _ it hit
    have hmem : ∀ a, Memory.memEq mem a kp m.keySize = true ↔ bytesAt mem a keySize = bytesAt mem kp keySize := by
      intro a; rw [r1]; exact Memory.memEq_iff ..
    have hwd : ∀ j < rc, (j + rc - kh % rc) % rc = dist rc kh j := fun j _ => rfl
    -- the counters
    have hchn : ∀ (j : Nat) (it : Item), items[j]? = some it → ∃ x : Int, (bucketsGetChns buckets)[j]? = some x ∧
        x ≤ rc ∧ (it.chain : Int) + (if dist rc kh j < i then 1 else 0) = x := by
      intro j it hj
      have hjl : j < rc := r3' ▸ HashMap.getElem?_lt hj
      have hx := List.getElem?_eq_getElem (l := bucketsGetChns buckets) (i := j) (by omega)
      have hy := List.getElem?_eq_getElem (l := bucketsGetChns (bucketsRemoveKey key buckets)) (i := j) (by omega)
      refine ⟨_, hx, ?_, ?_⟩
      · have := (C77_counters.2.2.2.2.2.1 0 buckets (j : Int) s2 (by omega) (by omega)).2.2
        rw [nth_nat, List.getD_eq_getElem?_getD, hx, s5] at this
        exact this
      · have e1 := congrArg (fun l => l[j]?) x1
        simp only [List.getElem?_map, hj, Option.map_some] at e1
        rw [add_get, hcl, hy] at e1
        have e2 := congrArg (fun l => l[j]?) hrem
        simp only [hx] at e2
        rw [add_get, hcl, hy] at e2
        simp only [Option.map_some, Option.some.injEq] at e1 e2
        have := weight_rest hsl hjl hd hid
        rw [hwd j hjl] at this
        rw [e2, e1]
        split at this <;> rename_i hc
        · rw [if_pos hc]; omega
        · rw [if_neg hc]; omega
    by_cases hA : it.keyAddr ≠ 0 ∧ it.keyHash = kh ∧ Memory.memEq mem it.keyAddr kp m.keySize = true
    · -- the slot of the key
      left
      refine ⟨items.set (slot rc kh i) { it with keyAddr := 0 }, fun k => ?_, ?_⟩
      · rw [removeLoop, hidx]
        rw [hit]
        simp only [Option.bind_eq_bind, Option.bind_some, if_pos hA]
      · let orig := items.mapIdx fun j it => if dist rc kh j < i then { it with chain := it.chain + 1 } else it
        have hoget : ∀ j : Nat, orig[j]? = items[j]?.map fun it =>
            if dist rc kh j < i then { it with chain := it.chain + 1 } else it := by
          intro j; simp only [orig, List.getElem?_mapIdx]
        have holen : orig.length = rc := by simp only [orig, List.length_mapIdx]; exact r3'.symm
        obtain ⟨hoo, co⟩ := core_chain (items' := orig) (mapIdx_same items (fun _ it => it.chain + 1) _) ⟨ho, c⟩
        have hoch : orig.map (fun it => (it.chain : Int)) = bucketsGetChns buckets := by
          apply List.ext_getElem?
          intro j
          rw [List.getElem?_map, hoget]
          cases hj : items[j]? with
          | none =>
            rw [List.getElem?_eq_none (by
              rw [hcl', r3']
              by_contra h; rw [List.getElem?_eq_getElem (by omega)] at hj; cases hj)]
            rfl
          | some it =>
            obtain ⟨x, hx, _, he⟩ := hchn j it hj
            rw [hx]
            simp only [Option.map_some, Option.some.injEq]
            split
            · rename_i hd; rw [if_pos hd] at he; dsimp only; omega
            · rename_i hd; rw [if_neg hd] at he; omega
        have invo : Inv hf mem keySize (2 ^ p) orig mv ma := by
          have := insync_inv co buckets ⟨hoch, s2, by rw [holen]; exact s3, by rw [← hoo]; exact s4, by rw [holen]; exact s5⟩
          rw [holen, hcp] at this
          exact this
        have hitems : items = orig.mapIdx fun j it => if dist (2 ^ p) kh j < i then
            { it with chain := (it.chain + (2 ^ 64 - 1)) % 2 ^ 64 } else it := by
          apply List.ext_getElem?
          intro j
          rw [List.getElem?_mapIdx, hoget, ← hcp]
          cases hj : items[j]? with
          | none => rfl
          | some it =>
            obtain ⟨x, hx, h1, he⟩ := hchn j it hj
            simp only [Option.map_some, Option.some.injEq]
            have hlt := chain_lt he h1 hpow
            by_cases hd : dist rc kh j < i
            · simp only [if_pos hd]
              rw [dec_succ it.chain hlt]
            · simp only [if_neg hd]
        have hito : ∃ it', orig[slot rc kh i]? = some it' ∧ it'.keyAddr = it.keyAddr ∧ it'.keyHash = it.keyHash := by
          refine ⟨_, by rw [hoget, hit]; rfl, ?_, ?_⟩ <;> (split <;> rfl)
        obtain ⟨it', hit', ha', hh'⟩ := hito
        have hinv := HashMap.inv_remove hp invo (key := key) (s := slot rc kh i) hit' (by rw [ha']; exact hA.1)
          (by rw [ha']; exact (hmem _).1 hA.2.2)
        have hds : dist (2 ^ p) kh (slot rc kh i) = i := by rw [← hcp]; exact HashMap.dist_slot hi
        rw [hds] at hinv
        have hspec := HashMap.removeLoop_spec mem keySize p kp kh hp orig (hcp ▸ holen) i (hcp ▸ hi) (by
          intro e he it2 h h0 hk
          have := (upTo_slot _ _ _ _ _ hn).1 h7 e he
          rw [hoo, keyOf_getD _ _ it2 (hcp ▸ h)] at this
          exact this ((keyOf_some ..).2 ⟨h0, hk⟩).symm) (by
          intro it2 h
          rw [← hcp, hit'] at h
          cases h
          exact ⟨by rw [ha']; exact hA.1, by rw [hh']; exact hA.2.1, by rw [ha']; exact (hmem _).1 hA.2.2⟩) 0 i (by omega)
        rw [← hitems] at hspec
        obtain ⟨k, hk⟩ : ∃ k, 2 ^ p - i = k + 1 := ⟨_, (Nat.succ_pred_eq_of_pos (Nat.sub_pos_of_lt (hcp ▸ hi))).symm⟩
        rw [hk, removeLoop, ← hcp, hidx] at hspec
        rw [hit] at hspec
        rw [r1] at hA
        simp only [Option.bind_eq_bind, Option.bind_some, if_pos hA, Option.some.injEq] at hspec
        rw [hspec]
        refine (mapp_iff _ keySize capacity).2 ⟨r1, ?_, ?_⟩
        · show capacityOk capacity m.capacity
          rw [r2]; exact hcap
        · show Inv hf mem keySize m.capacity _ _ _
          rw [r2, hcp]; exact hinv
    · -- another slot
      right
      have hne : keyOf mem keySize it ≠ some key := by
        rw [Ne, keyOf_some]
        rintro ⟨h0, hk⟩
        exact hA ⟨h0, by rw [c.hash _ it hit h0, hk], (hmem _).2 hk⟩
      have hdi : d ≠ i := by
        intro h
        have : slot rc kh i = q := by rw [← hsd, h, s5]; rfl
        rw [this] at hopt
        rw [s4, List.getD_eq_getElem?_getD, hkeyq] at hopt
        exact hne hopt.symm
      have hsub := C77_partial_chains.2.2.1 0 _ ((slot rc kh i : Nat) : Int) ((d - i : Nat) : Int) _ rc x1
        (by exact_mod_cast hcl) (by omega) (by omega) (by omega) (by omega)
      have hpos := C77_partial_chains.1 0 ((slot rc kh i : Nat) : Int) ((d - i : Nat) : Int)
        (bucketsGetChns (bucketsRemoveKey key buckets)) (by omega) (by omega) (by omega)
        (C77_counters.2.1 (bucketsRemoveKey key buckets))
      have hval : nth 0 ((slot rc kh i : Nat) : Int) (items.map fun it => (it.chain : Int)) = it.chain := by
        rw [nth_nat, List.getD_eq_getElem?_getD, List.getElem?_map, hit]; rfl
      change 0 < nth 0 _ (addPartialChain (((kh % rc + i) % rc : Nat) : Int) _ _) at hpos
      rw [← x1, hval] at hpos
      rw [hval, update_nat] at hsub
      obtain ⟨x, hx, hx1, hxe⟩ := hchn _ it hit
      have hunder : (it.chain + (2 ^ 64 - 1)) % 2 ^ 64 = it.chain - 1 := by
        exact dec_pos _ (chain_lt hxe hx1 hpow) (by exact_mod_cast hpos)
      have hcore' := core_chain (set_chain_same items _ it hit (it.chain - 1)) ⟨ho, c⟩
      have hsame := set_chain_same items _ it hit (it.chain - 1)
      have hcomp : ∀ g : Nat × Nat × Nat → Nat,
          (items.set (slot rc kh i) { it with chain := it.chain - 1 }).map (fun it => g (it.keyAddr, it.keyHash, it.value)) =
            items.map fun it => g (it.keyAddr, it.keyHash, it.value) := by
        intro g
        have := congrArg (List.map g) hsame
        simpa only [List.map_map, Function.comp_def] using this
      refine ⟨items.set (slot rc kh i) { it with chain := it.chain - 1 }, fun k => ?_, ?_⟩
      · rw [removeLoop, hidx]
        rw [hit]
        simp only [Option.bind_eq_bind, Option.bind_some, if_neg hA, hunder]
      · refine ⟨_, ⟨r1, r2, ?_, ?_, ?_, rfl, by simp [r3'], ?_, ?_, ?_, by simp [r3']⟩, c1', hp2, by omega, hkp, rfl, s4, ?_, ?_,
          upTo_succ _ _ _ _ _ hn h7 ?_⟩
        · rw [ka]; exact (hcomp fun x => x.1).symm
        · rw [ha]; exact (hcomp fun x => x.2.1).symm
        · rw [va]; exact (hcomp fun x => x.2.2).symm
        · rw [ka]; simp [r3']
        · rw [ha]; simp [r3']
        · rw [va]; simp [r3']
        · rw [hstart, hchain]; omega
        · show (items.set (slot rc kh i) { it with chain := it.chain - 1 }).map (fun it => (it.chain : Int)) = _
          rw [set_chain_chns, hstart, hchain]
          have e1 : (((it.chain - 1 : Nat) : Nat) : Int) = (it.chain : Int) - 1 := by omega
          rw [e1, hsub]
          have e2 : ((slot rc kh i : Nat) : Int) + 1 = ((slot rc kh i + 1 : Nat) : Int) := by omega
          have e3 : ((kh % rc : Nat) : Int) + ((i + 1 : Nat) : Int) = ((kh % rc + i + 1 : Nat) : Int) := by omega
          have e4 : ((d - i : Nat) : Int) - 1 = (d : Int) - ((i + 1 : Nat) : Int) := by omega
          rw [e2, e3, e4, loopFp_nat _ _ hn, loopFp_nat _ _ hn, slot, Nat.mod_add_mod]
        · rw [hopt]; exact Ne.symm hne
  · rintro items ⟨_, _, _, _, _, _, _, _, h, _⟩
    rw [hstart, hchain] at h
    omega

/-- A map of two keys whose hashes collide meets the hypotheses of `C78_contracts`, of `C78_get_loop`, of `C78_set_loop`
for a third key and of `C78_remove_loop` for the second one. -/
example : ∃ (mem : Mem) (m : Map) (mv ma : GMap (List UInt8) Nat), mapp (fun _ => 3) mem m 1 3 mv ma ∧
    ∃ (kaddrs hashes : List Nat) (chains : List Int) (values : List Nat) (rc : Nat)
      (keyOpts : List (Option (List UInt8))) (buckets : List (Bucket (List UInt8))),
      mappRaw m kaddrs hashes chains values 1 rc ∧
      mappCore (fun _ => 3) mem 1 rc kaddrs hashes values keyOpts mv ma ∧
      bucketsKeysInsync (fun _ => 3) rc chains buckets keyOpts ∧ capacityOk 3 rc ∧
      (mv.length < 3 ∧ mv.get (bytesAt mem 3 1) = none ∧ ma.get (bytesAt mem 3 1) = none) ∧
      mv.get (bytesAt mem 2 1) = some 20 ∧ ma.get (bytesAt mem 2 1) = some 2 := by
  obtain ⟨m, m', mem', rs, h1, h2, h3⟩ := C78_always (fun _ _ _ => 3) (fun _ => 3) (fun _ _ _ => rfl) 1 3 (by decide)
    (fun a => UInt8.ofNat a) [.set 1 10, .set 2 20]
    (by simp [Legal, HashMapSpec.Pre, HashMapSpec.next, HashMap.callOf, HashMapSpec.keyAt, GMap.get, GMap.set])
  have hmem : mem' = fun a => UInt8.ofNat a := by
    have e : HashMap.alloc 1 3 = some ⟨[⟨0, 0, 0, 0⟩, ⟨0, 0, 0, 0⟩, ⟨0, 0, 0, 0⟩, ⟨0, 0, 0, 0⟩], 1, 4⟩ := rfl
    rw [e] at h1
    cases h1
    cases h2
    rfl
  subst hmem
  have h3' := h3
  obtain ⟨kaddrs, hashes, chains, values, rc, opts, bs, r, c, s, p⟩ := h3
  exact ⟨_, m', _, _, h3', kaddrs, hashes, chains, values, rc, opts, bs, r, c, s, p, by decide, by decide, by decide⟩

end

end Verif.Props
