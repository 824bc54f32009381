/- The byte-level table of Verif.Nf.Low simulates the contract-level one of Verif.Nf.Table. -/
import Verif.Nf.Low
import Verif.Nf.TableProofs
import Verif.Env.HashMapProofs

set_option autoImplicit false

namespace Verif.Nf.Low
open Verif.IndexPool
open Verif.HashMap (Rep HashOk)

/-- The hash as a function of bytes. -/
def hf (bs : List UInt8) : Nat := (Memory.hash (fun i => bs.getD i 0) 0 bs.length).toNat

theorem hashOk : HashOk hash hf := HashMap.memory_hash_ok

variable {K : Type} [DecidableEq K]

/-- Keys as bytes. -/
structure Enc (V : K → Prop) (enc : K → List UInt8) (ks : Nat) : Prop where
  len : ∀ k, V k → (enc k).length = ks
  inj : ∀ k k', V k → V k' → enc k = enc k' → k = k'

/-- The ranges of memory are apart. -/
structure Fits (l : Layout) : Prop where
  nonnull : 0 < l.keys
  ks : 0 < l.ks
  pkt : l.pkt + bufferSize ≤ l.keys ∨ l.keys + l.ks * l.size ≤ l.pkt
  loc : l.loc + 16 ≤ l.keys ∨ l.keys + l.ks * l.size ≤ l.loc

theorem cell_le {l : Layout} {i : Nat} (h : i < l.size) : l.cell i + l.ks ≤ l.keys + l.ks * l.size := by
  have : l.ks * (i + 1) ≤ l.ks * l.size := Nat.mul_le_mul_left _ h
  rw [Nat.mul_succ] at this
  unfold Layout.cell; omega

theorem cell_apart {l : Layout} {i j : Nat} (h : i ≠ j) : l.cell i + l.ks ≤ l.cell j ∨ l.cell j + l.ks ≤ l.cell i := by
  unfold Layout.cell
  rcases Nat.lt_or_gt_of_ne h with h | h
  · left
    have : l.ks * (i + 1) ≤ l.ks * j := Nat.mul_le_mul_left _ h
    rw [Nat.mul_succ] at this; omega
  · right
    have : l.ks * (j + 1) ≤ l.ks * i := Nat.mul_le_mul_left _ h
    rw [Nat.mul_succ] at this; omega

theorem cell_inj {l : Layout} (h : 0 < l.ks) {i j : Nat} (he : l.cell i = l.cell j) : i = j := by
  rcases Nat.decEq i j with hn | hn
  · have := cell_apart (l := l) hn; omega
  · exact hn

/-- Contents of the contract's maps as those of the implementation's. -/
def encKV {V : Type} (enc : K → List UInt8) (g : Nat → V) (m : GMap K Nat) : GMap (List UInt8) V :=
  m.map fun x => (enc x.1, g x.2)

section
variable {V : K → Prop} {enc : K → List UInt8} {ks : Nat} (e : Enc V enc ks) (g : Nat → Nat)
include e

theorem encKV_get : ∀ (m : GMap K Nat) (_ : ∀ x ∈ m, V x.1) (k : K) (_ : V k),
    (encKV enc g m).get (enc k) = (m.get k).map g := by
  intro m
  induction m with
  | nil => intro _ k _; rfl
  | cons x t ih =>
    intro hm k hk
    have hx : V x.1 := hm x (by simp)
    have := ih (fun y hy => hm y (by simp [hy])) k hk
    simp only [encKV, List.map_cons, GMap.get]
    by_cases h : x.1 = k
    · simp [h]
    · rw [if_neg h, if_neg (fun he => h (e.inj _ _ hx hk he))]; exact this

theorem encKV_set : ∀ (m : GMap K Nat) (_ : ∀ x ∈ m, V x.1) (k : K) (_ : V k) (v : Nat),
    encKV enc g (m.set k v) = (encKV enc g m).set (enc k) (g v) := by
  intro m
  induction m with
  | nil => intro _ k _ _; rfl
  | cons x t ih =>
    intro hm k hk v
    have hx : V x.1 := hm x (by simp)
    have := ih (fun y hy => hm y (by simp [hy])) k hk v
    simp only [encKV, List.map_cons, GMap.set]
    by_cases h : x.1 = k
    · simp [h]; exact this
    · rw [if_neg h, if_neg (fun he => h (e.inj _ _ hx hk he))]
      simp only [List.map_cons]
      congr 1

theorem encKV_remove : ∀ (m : GMap K Nat) (_ : ∀ x ∈ m, V x.1) (k : K) (_ : V k),
    encKV enc g (m.remove k) = (encKV enc g m).remove (enc k) := by
  intro m
  induction m with
  | nil => intro _ k _; rfl
  | cons x t ih =>
    intro hm k hk
    have hx : V x.1 := hm x (by simp)
    have := ih (fun y hy => hm y (by simp [hy])) k hk
    simp only [encKV, List.map_cons, GMap.remove]
    by_cases h : x.1 = k
    · simp [h]; exact this
    · rw [if_neg h, if_neg (fun he => h (e.inj _ _ hx hk he))]
      simp only [List.map_cons]
      congr 1

end

theorem mem_set {V : Type} {m : GMap K V} {k : K} {v : V} {x : K × V} (h : x ∈ m.set k v) : x = (k, v) ∨ x ∈ m := by
  induction m with
  | nil => simp [GMap.set] at h; exact .inl h
  | cons y t ih =>
    simp only [GMap.set] at h
    split at h
    · rcases ih h with h | h
      · exact .inl h
      · exact .inr (by simp [h])
    · rcases List.mem_cons.1 h with h | h
      · exact .inr (by simp [h])
      · rcases ih h with h | h
        · exact .inl h
        · exact .inr (by simp [h])

theorem mem_remove {V : Type} {m : GMap K V} {k : K} {x : K × V} (h : x ∈ m.remove k) : x ∈ m := by
  induction m with
  | nil => simp [GMap.remove] at h
  | cons y t ih =>
    simp only [GMap.remove] at h
    split at h
    · simp [ih h]
    · rcases List.mem_cons.1 h with h | h
      · simp [h]
      · simp [ih h]

/-- The byte-level table represents the contract-level one. -/
structure Sim (V : K → Prop) (enc : K → List UInt8) (l : Layout) (s : State) (tb : Table K) : Prop where
  pool : s.pool = tb.pool
  len : tb.keys.length = l.size
  cap : tb.map.cap = l.size
  keysV : ∀ k ∈ tb.keys, V k
  valsV : ∀ x ∈ tb.map.values, V x.1
  adrsV : ∀ x ∈ tb.map.addrs, V x.1
  adrsB : ∀ x ∈ tb.map.addrs, x.2 < l.size
  cells : ∀ (i : Nat) (k : K), tb.keys[i]? = some k → bytesAt s.mem (l.cell i) l.ks = enc k
  rep : Rep hf l.ks l.size s.map ⟨s.mem, encKV enc id tb.map.values, encKV enc l.cell tb.map.addrs⟩

theorem rep_frame {ks cap : Nat} {m : HashMap.Map} {mem mem' : Mem} {v a : GMap (List UInt8) Nat}
    (r : Rep hf ks cap m ⟨mem, v, a⟩) (h : ∀ k p, a.get k = some p → bytesAt mem' p ks = bytesAt mem p ks) :
    Rep hf ks cap m ⟨mem', v, a⟩ := by
  obtain ⟨rk, rc, inv⟩ := r
  refine ⟨rk, rc, ?_⟩
  have hsame : ∀ (j : Nat) (it : HashMap.Item), m.items[j]? = some it → it.keyAddr ≠ 0 →
      bytesAt mem' it.keyAddr ks = bytesAt mem it.keyAddr ks := fun j it hj h0 =>
    h _ _ ((inv.adrs (bytesAt mem it.keyAddr ks) it.keyAddr).2 ⟨j, it, hj, h0, rfl, rfl⟩)
  refine ⟨inv.len, ?_, ?_, inv.chain, ?_, ?_, inv.dv, inv.da⟩
  · intro j it hj h0
    show it.keyHash = hf (bytesAt mem' it.keyAddr ks)
    rw [hsame j it hj h0]; exact inv.hash j it hj h0
  · intro j j' it it' hj hj' h0 h0' hk
    have hk : bytesAt mem' it.keyAddr ks = bytesAt mem' it'.keyAddr ks := hk
    rw [hsame j it hj h0, hsame j' it' hj' h0'] at hk
    exact inv.inj j j' it it' hj hj' h0 h0' hk
  · intro k w
    show v.get k = some w ↔ ∃ (j : Nat) (it : HashMap.Item), m.items[j]? = some it ∧ it.keyAddr ≠ 0 ∧
      bytesAt mem' it.keyAddr ks = k ∧ it.value = w
    rw [inv.vals]
    constructor
    · rintro ⟨j, it, hj, h0, h1⟩; exact ⟨j, it, hj, h0, by rw [hsame j it hj h0]; exact h1⟩
    · rintro ⟨j, it, hj, h0, h1⟩; exact ⟨j, it, hj, h0, by rw [← hsame j it hj h0]; exact h1⟩
  · intro k w
    show a.get k = some w ↔ ∃ (j : Nat) (it : HashMap.Item), m.items[j]? = some it ∧ it.keyAddr ≠ 0 ∧
      bytesAt mem' it.keyAddr ks = k ∧ it.keyAddr = w
    rw [inv.adrs]
    constructor
    · rintro ⟨j, it, hj, h0, h1⟩; exact ⟨j, it, hj, h0, by rw [hsame j it hj h0]; exact h1⟩
    · rintro ⟨j, it, hj, h0, h1⟩; exact ⟨j, it, hj, h0, by rw [← hsame j it hj h0]; exact h1⟩

theorem bytesAt_store_apart (m : Mem) (a n : Nat) (b : Nat → UInt8) (p k : Nat) (h : p + k ≤ a ∨ a + n ≤ p) :
    bytesAt (store m a n b) p k = bytesAt m p k := by
  apply List.map_congr_left
  intro i hi
  have := List.mem_range.1 hi
  show (if a ≤ p + i ∧ p + i < a + n then b (p + i - a) else m (p + i)) = m (p + i)
  rw [if_neg (by omega)]

theorem bytesAt_store_in (m : Mem) (a n : Nat) (b : Nat → UInt8) (o k : Nat) (h : o + k ≤ n) :
    bytesAt (store m a n b) (a + o) k = (List.range k).map fun i => b (o + i) := by
  apply List.map_congr_left
  intro i hi
  have := List.mem_range.1 hi
  show (if a ≤ a + o + i ∧ a + o + i < a + n then b (a + o + i - a) else m (a + o + i)) = b (o + i)
  rw [if_pos (by omega)]
  congr 1; omega

section
variable {V : K → Prop} {enc : K → List UInt8} {l : Layout} {s : State} {tb : Table K}

omit [DecidableEq K] in
theorem encKV_get_some {g : Nat → Nat} {m : GMap K Nat} {k : List UInt8} {p : Nat} (h : (encKV enc g m).get k = some p) :
    ∃ x ∈ m, g x.2 = p := by
  have := GMap.get_some_mem h
  obtain ⟨x, hx, he⟩ := List.mem_map.1 this
  exact ⟨x, hx, (Prod.mk.inj he).2⟩

omit [DecidableEq K] in
/-- Stores outside of the array of keys change nothing. -/
theorem Sim.store (r : Sim V enc l s tb) (a n : Nat) (b : Nat → UInt8)
    (h : a + n ≤ l.keys ∨ l.keys + l.ks * l.size ≤ a) : Sim V enc l { s with mem := Low.store s.mem a n b } tb := by
  have hc : ∀ i < l.size, bytesAt (Low.store s.mem a n b) (l.cell i) l.ks = bytesAt s.mem (l.cell i) l.ks := by
    intro i hi
    apply bytesAt_store_apart
    have := cell_le hi
    have : l.keys ≤ l.cell i := by unfold Layout.cell; omega
    omega
  refine ⟨r.pool, r.len, r.cap, r.keysV, r.valsV, r.adrsV, r.adrsB, ?_, ?_⟩
  · intro i k hk
    have hi : i < l.size := by rw [← r.len]; exact (List.getElem?_eq_some_iff.1 hk).1
    exact (hc i hi).trans (r.cells i k hk)
  · refine rep_frame r.rep ?_
    intro k p hp
    obtain ⟨x, hx, rfl⟩ := encKV_get_some hp
    exact hc _ (r.adrsB x hx)

theorem sim_get (e : Enc V enc l.ks) (r : Sim V enc l s tb) {kp : Nat} {k : K} (hk : V k)
    (hb : bytesAt s.mem kp l.ks = enc k) : get s kp = some (tb.map.get k) := by
  have := HashMap.get_rep hashOk r.rep kp
  unfold get
  rw [this]
  show some ((encKV enc id tb.map.values).get (bytesAt s.mem kp l.ks)) = _
  rw [hb, encKV_get e id _ r.valsV k hk]
  unfold CMap.get
  cases tb.map.values.get k <;> rfl

omit [DecidableEq K] in
theorem sim_refresh (r : Sim V enc l s tb) {time i : Nat} {tb' : Table K} (h : tb.refresh time i = some tb') :
    ∃ s', refresh s time i = some s' ∧ s'.mem = s.mem ∧ Sim V enc l s' tb' := by
  unfold Table.refresh at h
  cases hp : IndexPool.refresh tb.pool time i with
  | none => simp [hp] at h
  | some p =>
    simp [hp] at h
    subst h
    refine ⟨{ s with pool := p }, ?_, rfl, ⟨rfl, r.len, r.cap, r.keysV, r.valsV, r.adrsV, r.adrsB, r.cells, r.rep⟩⟩
    simp [refresh, r.pool, hp]

theorem sim_remove (e : Enc V enc l.ks) (f : Fits l) (r : Sim V enc l s tb) {i : Nat} {k : K} {m : CMap K}
    (hk : tb.keys[i]? = some k) (h : tb.map.remove k i = some m) :
    ∃ m', HashMap.remove hash s.mem s.map (l.cell i) = some m' ∧ Sim V enc l { s with map := m' } { tb with map := m } := by
  unfold CMap.remove at h
  split at h
  swap
  · cases h
  rename_i hpre
  cases h
  have hV : V k := r.keysV k (List.mem_of_getElem? hk)
  have hb := r.cells i k hk
  obtain ⟨m', h1, h2⟩ := HashMap.remove_rep hashOk r.rep (l.cell i) (by
    refine ⟨by unfold Layout.cell; have := f.nonnull; omega, ?_, ?_⟩
    · rw [HashMap.keyAt_eq]
      show (encKV enc id tb.map.values).get (bytesAt s.mem (l.cell i) l.ks) ≠ none
      rw [hb, encKV_get e id _ r.valsV k hV]
      simpa using hpre.1
    · rw [HashMap.keyAt_eq]
      show (encKV enc l.cell tb.map.addrs).get (bytesAt s.mem (l.cell i) l.ks) = some (l.cell i)
      rw [hb, encKV_get e l.cell _ r.adrsV k hV, hpre.2]
      rfl)
  refine ⟨m', h1, ⟨r.pool, r.len, r.cap, r.keysV, fun x hx => r.valsV x (mem_remove hx),
    fun x hx => r.adrsV x (mem_remove hx), fun x hx => r.adrsB x (mem_remove hx), r.cells, ?_⟩⟩
  have : HashMapSpec.next l.ks ⟨s.mem, encKV enc id tb.map.values, encKV enc l.cell tb.map.addrs⟩ (.remove (l.cell i)) =
      ⟨s.mem, encKV enc id (tb.map.values.remove k), encKV enc l.cell (tb.map.addrs.remove k)⟩ := by
    simp only [HashMapSpec.next, HashMap.keyAt_eq]
    rw [hb, encKV_remove e id _ r.valsV k hV, encKV_remove e l.cell _ r.adrsV k hV]
  rw [this] at h2
  exact h2

omit [DecidableEq K] in
theorem sim_writeKey (r : Sim V enc l s tb) {i kp : Nat} {k : K} (hV : V k)
    (hb : bytesAt s.mem kp l.ks = enc k) {tb' : Table K} (h : tb.writeKey i k = some tb') :
    ∃ mem', assign l s.mem i kp = some mem' ∧ Sim V enc l { s with mem := mem' } tb' := by
  unfold Table.writeKey at h
  split at h
  swap
  · cases h
  rename_i hpre
  cases h
  have hi : i < l.size := by rw [← r.len]; exact hpre.1
  have hsame : ∀ j ≠ i, bytesAt (Low.store s.mem (l.cell i) l.ks fun j => s.mem (kp + j)) (l.cell j) l.ks =
      bytesAt s.mem (l.cell j) l.ks := by
    intro j hj
    exact bytesAt_store_apart _ _ _ _ _ _ (cell_apart hj)
  have hself : bytesAt (Low.store s.mem (l.cell i) l.ks fun j => s.mem (kp + j)) (l.cell i) l.ks = enc k := by
    rw [← hb]
    have := bytesAt_store_in s.mem (l.cell i) l.ks (fun j => s.mem (kp + j)) 0 l.ks (by omega)
    simpa [bytesAt] using this
  refine ⟨Low.store s.mem (l.cell i) l.ks fun j => s.mem (kp + j), by unfold assign; rw [if_pos hi], ⟨r.pool, by simpa using r.len, r.cap, ?_, r.valsV, r.adrsV, r.adrsB, ?_, ?_⟩⟩
  · intro x hx
    rcases List.mem_or_eq_of_mem_set hx with h | h
    · exact r.keysV x h
    · rw [h]; exact hV
  · intro j x hx
    by_cases hj : j = i
    · subst hj
      simp only [List.getElem?_set_self hpre.1, Option.some.injEq] at hx
      subst hx
      exact hself
    · simp only [List.getElem?_set_ne (fun he => hj he.symm)] at hx
      exact (hsame j hj).trans (r.cells j x hx)
  · refine rep_frame r.rep ?_
    intro y p hp
    obtain ⟨x, hx, rfl⟩ := encKV_get_some hp
    exact hsame _ (hpre.2 x hx)

theorem sim_set (e : Enc V enc l.ks) (f : Fits l) (r : Sim V enc l s tb) {i : Nat} {k : K} {m : CMap K}
    (hk : tb.keys[i]? = some k) (h : tb.map.set k i i = some m) :
    ∃ m', HashMap.set hash s.mem s.map (l.cell i) i = some m' ∧ Sim V enc l { s with map := m' } { tb with map := m } := by
  unfold CMap.set at h
  split at h
  swap
  · cases h
  rename_i hpre
  cases h
  have hV : V k := r.keysV k (List.mem_of_getElem? hk)
  have hi : i < l.size := by rw [← r.len]; exact (List.getElem?_eq_some_iff.1 hk).1
  have hb := r.cells i k hk
  obtain ⟨m', h1, h2, _⟩ := HashMap.set_rep hashOk r.rep (l.cell i) i (by
    refine ⟨by unfold Layout.cell; have := f.nonnull; omega, ?_, ?_, ?_⟩
    · show (encKV enc id tb.map.values).length < l.size
      rw [encKV, List.length_map, ← r.cap]; exact hpre.1
    · rw [HashMap.keyAt_eq]
      show (encKV enc id tb.map.values).get (bytesAt s.mem (l.cell i) l.ks) = none
      rw [hb, encKV_get e id _ r.valsV k hV, hpre.2.1]; rfl
    · rw [HashMap.keyAt_eq]
      show (encKV enc l.cell tb.map.addrs).get (bytesAt s.mem (l.cell i) l.ks) = none
      rw [hb, encKV_get e l.cell _ r.adrsV k hV, hpre.2.2]; rfl)
  refine ⟨m', h1, ⟨r.pool, r.len, r.cap, r.keysV, ?_, ?_, ?_, r.cells, ?_⟩⟩
  · intro x hx
    rcases mem_set hx with rfl | hx
    · exact hV
    · exact r.valsV x hx
  · intro x hx
    rcases mem_set hx with rfl | hx
    · exact hV
    · exact r.adrsV x hx
  · intro x hx
    rcases mem_set hx with rfl | hx
    · exact hi
    · exact r.adrsB x hx
  have : HashMapSpec.next l.ks ⟨s.mem, encKV enc id tb.map.values, encKV enc l.cell tb.map.addrs⟩ (.set (l.cell i) i) =
      ⟨s.mem, encKV enc id (tb.map.values.set k i), encKV enc l.cell (tb.map.addrs.set k i)⟩ := by
    simp only [HashMapSpec.next, HashMap.keyAt_eq]
    rw [hb, encKV_set e id _ r.valsV k hV, encKV_set e l.cell _ r.adrsV k hV]
    rfl
  rw [this] at h2
  exact h2

theorem sim_drop (e : Enc V enc l.ks) (f : Fits l) (r : Sim V enc l s tb) {i : Nat} {tb' : Table K}
    (h : tb.drop i = some tb') : ∃ s', drop l s i = some s' ∧ s'.mem = s.mem ∧ Sim V enc l s' tb' := by
  unfold Table.drop at h
  cases hk : tb.keys[i]? with
  | none => simp [hk] at h
  | some k =>
    cases hm : tb.map.remove k i with
    | none => simp [hk, hm] at h
    | some m =>
      cases hp : giveBack tb.pool i with
      | none => simp [hk, hp] at h
      | some p =>
        simp [hk, hm, hp] at h
        subst h
        obtain ⟨m', h1, h2⟩ := sim_remove e f r hk hm
        refine ⟨{ s with map := m', pool := p }, by simp [drop, h1, r.pool, hp], rfl,
          ⟨rfl, h2.len, h2.cap, h2.keysV, h2.valsV, h2.adrsV, h2.adrsB, h2.cells, h2.rep⟩⟩

theorem sim_insert (e : Enc V enc l.ks) (f : Fits l) (r : Sim V enc l s tb) {time kp : Nat} {k : K} (hV : V k)
    (hb : bytesAt s.mem kp l.ks = enc k) {tb' : Table K} {o : Option Nat} (h : tb.insert time k = some (tb', o)) :
    ∃ s', insert l s time kp = some (s', o) ∧ Sim V enc l s' tb' ∧
      ∀ a n, (a + n ≤ l.keys ∨ l.keys + l.ks * l.size ≤ a) → bytesAt s'.mem a n = bytesAt s.mem a n := by
  unfold Table.insert at h
  cases hp : borrow tb.pool time with
  | none => simp [hp] at h
  | some x =>
    obtain ⟨pool, y⟩ := x
    simp only [hp, Option.bind_eq_bind, Option.bind_some] at h
    have r1 : Sim V enc l { s with pool := pool } { tb with pool := pool } :=
      ⟨rfl, r.len, r.cap, r.keysV, r.valsV, r.adrsV, r.adrsB, r.cells, r.rep⟩
    cases y with
    | none =>
      simp only [Option.some.injEq, Prod.mk.injEq] at h
      obtain ⟨rfl, rfl⟩ := h
      exact ⟨_, by simp [insert, r.pool, hp], r1, fun _ _ _ => rfl⟩
    | some z =>
      obtain ⟨index, wasUsed⟩ := z
      simp only at h
      cases hd : Table.dropOld { tb with pool := pool } index wasUsed with
      | none => simp [hd] at h
      | some m =>
        simp only [hd, Option.bind_some] at h
        have hdrop : ∃ m', dropOld l s index wasUsed = some m' ∧
            Sim V enc l { s with pool := pool, map := m' } { tb with pool := pool, map := m } := by
          cases wasUsed with
          | false =>
            simp only [Table.dropOld, Option.some.injEq] at hd
            subst hd
            exact ⟨s.map, rfl, r1⟩
          | true =>
            simp only [Table.dropOld] at hd
            cases hk : tb.keys[index]? with
            | none => simp [hk] at hd
            | some old =>
              simp only [hk, Option.bind_eq_bind, Option.bind_some] at hd
              obtain ⟨m', h1, h2⟩ := sim_remove e f r1 hk hd
              exact ⟨m', h1, h2⟩
        obtain ⟨m', hd1, r2⟩ := hdrop
        cases hw : Table.writeKey { tb with pool := pool, map := m } index k with
        | none => simp [hw] at h
        | some tb2 =>
          simp only [hw, Option.bind_some] at h
          obtain ⟨mem', hw1, r3⟩ := sim_writeKey r2 hV (kp := kp) hb hw
          have hk2 : tb2.keys[index]? = some k := by
            unfold Table.writeKey at hw
            split at hw
            · rename_i hh
              cases hw
              exact List.getElem?_set_self hh.1
            · cases hw
          cases hs : tb2.map.set k index index with
          | none => simp [hs] at h
          | some m2 =>
            simp only [hs, Option.bind_some, Option.some.injEq, Prod.mk.injEq] at h
            obtain ⟨rfl, rfl⟩ := h
            obtain ⟨m3, hs1, r4⟩ := sim_set e f r3 hk2 hs
            simp only at hs1 hw1
            refine ⟨⟨mem', m3, pool⟩, by simp [insert, r.pool, hp, hd1, hw1, hs1], r4, ?_⟩
            intro a n ha
            unfold assign at hw1
            split at hw1
            · rename_i hi
              cases hw1
              have := cell_le hi
              have : l.keys ≤ l.cell index := by unfold Layout.cell; omega
              show bytesAt (Low.store s.mem (l.cell index) l.ks fun j => s.mem (kp + j)) a n = _
              exact bytesAt_store_apart _ _ _ _ _ _ (by omega)
            · cases hw1

omit [DecidableEq K] in
theorem sim_alloc {zero : K} (hz : V zero) (hz0 : enc zero = List.replicate l.ks 0)
    (hsize : l.size * 64 ≤ 2 ^ 64 - 1) (mem : Mem) (exp : Nat) {tb : Table K} (h : Table.alloc zero l.size exp = some tb) :
    ∃ s, alloc l mem exp = some s ∧ Sim V enc l s tb := by
  unfold Table.alloc at h
  cases hp : IndexPool.alloc l.size exp with
  | none => simp [hp] at h
  | some pool =>
    simp [hp] at h
    subst h
    obtain ⟨m, h1, h2⟩ := HashMap.alloc_rep hf l.ks l.size hsize (Low.store mem l.keys (l.ks * l.size) fun _ => 0)
    refine ⟨⟨Low.store mem l.keys (l.ks * l.size) fun _ => 0, m, pool⟩, by simp [alloc, h1, hp], ⟨rfl, by simp, rfl, ?_, by simp [CMap.alloc], by simp [CMap.alloc],
      by simp [CMap.alloc], ?_, h2⟩⟩
    · intro k hk
      rw [List.eq_of_mem_replicate hk]; exact hz
    · intro i k hk
      obtain ⟨hi, hk⟩ := List.getElem?_eq_some_iff.1 hk
      simp only [List.length_replicate] at hi
      simp only [List.getElem_replicate] at hk
      subst hk
      rw [hz0]
      have := cell_le hi
      have hc : l.cell i = l.keys + l.ks * i := rfl
      show bytesAt (Low.store mem l.keys (l.ks * l.size) fun _ => 0) (l.cell i) l.ks = _
      rw [hc, bytesAt_store_in _ _ _ _ _ _ (by omega)]
      simp

end

/-! ### Keys as bytes -/

/-- The fields fit their types. -/
def FlowOk (f : Flow) : Prop :=
  f.srcIp < 2 ^ 32 ∧ f.dstIp < 2 ^ 32 ∧ f.srcPort < 65536 ∧ f.dstPort < 65536 ∧ f.protocol < 256

theorem bytesAt_get {m : Mem} {a n : Nat} {bs : List UInt8} (h : bytesAt m a n = bs) {i : Nat} (hi : i < n) :
    bs[i]? = some (m (a + i)) := by
  rw [← h]; simp [bytesAt, hi]

theorem ofNat_toNat (n : Nat) : (UInt8.ofNat n).toNat = n % 256 := by simp

theorem loadFlow_flowBytes {m : Mem} {a : Nat} {f : Flow} (hf : FlowOk f) (h : bytesAt m a 16 = flowBytes f) :
    loadFlow m a = f := by
  obtain ⟨s, d, sp, dp, pr⟩ := f
  obtain ⟨h1, h2, h3, h4, h5⟩ := hf
  simp only at h1 h2 h3 h4 h5
  have g := fun i (hi : i < 16) => bytesAt_get h hi
  have g0 := g 0 (by omega); have g1 := g 1 (by omega); have g2 := g 2 (by omega); have g3 := g 3 (by omega)
  have g4 := g 4 (by omega); have g5 := g 5 (by omega); have g6 := g 6 (by omega); have g7 := g 7 (by omega)
  have g8 := g 8 (by omega); have g9 := g 9 (by omega); have g10 := g 10 (by omega); have g11 := g 11 (by omega)
  have g12 := g 12 (by omega)
  simp only [flowBytes, List.getElem?_cons_zero, List.getElem?_cons_succ, Option.some.injEq, Nat.add_zero] at g0 g1 g2 g3 g4 g5 g6 g7 g8 g9 g10 g11 g12
  simp only [loadFlow, ld32, ld16, Nat.add_assoc, Nat.reduceAdd, ← g0, ← g1, ← g2, ← g3, ← g4, ← g5, ← g6, ← g7, ← g8,
    ← g9, ← g10, ← g11, ← g12, ofNat_toNat, Flow.mk.injEq]
  omega

theorem flow_enc : Enc FlowOk flowBytes 16 := by
  refine ⟨fun _ _ => rfl, fun k k' hk hk' h => ?_⟩
  have e : ∀ f, bytesAt (fun i => (flowBytes f).getD i 0) 0 16 = flowBytes f := fun f => rfl
  rw [← loadFlow_flowBytes hk (e k), ← loadFlow_flowBytes hk' (e k'), h]

theorem putFlow_bytes (l : Layout) (s : State) (f : Flow) : bytesAt (putFlow l s f).mem l.loc 16 = flowBytes f := by
  have := bytesAt_store_in s.mem l.loc 16 (fun j => (flowBytes f).getD j 0) 0 16 (by omega)
  simp only [Nat.add_zero] at this
  exact this.trans rfl

theorem u8_lt (x : UInt8) : x.toNat < 256 := x.toNat_lt

theorem ld16_lt (m : Mem) (a : Nat) : ld16 m a < 65536 := by
  have := u8_lt (m a); have := u8_lt (m (a + 1)); unfold ld16; omega

theorem ld32_lt (m : Mem) (a : Nat) : ld32 m a < 2 ^ 32 := by
  have := ld16_lt m a; have := ld16_lt m (a + 2); unfold ld32; omega

/-- A 32-bit key. -/
def enc4 (n : Nat) : List UInt8 := [UInt8.ofNat n, UInt8.ofNat (n / 256), UInt8.ofNat (n / 65536), UInt8.ofNat (n / 16777216)]

/-- A 48-bit key. -/
def enc6 (n : Nat) : List UInt8 := enc4 n ++ [UInt8.ofNat (n / 2 ^ 32), UInt8.ofNat (n / 2 ^ 40)]

theorem ofNat_inj {a b : Nat} (h : UInt8.ofNat a = UInt8.ofNat b) : a % 256 = b % 256 := by
  have := congrArg UInt8.toNat h
  simpa using this

theorem enc4_enc : Enc (fun n => n < 2 ^ 32) enc4 4 := by
  refine ⟨fun _ _ => rfl, fun k k' hk hk' h => ?_⟩
  simp only [enc4, List.cons.injEq, and_true] at h
  have h0 := ofNat_inj h.1
  have h1 := ofNat_inj h.2.1
  have h2 := ofNat_inj h.2.2.1
  have h3 := ofNat_inj h.2.2.2
  omega

theorem enc6_enc : Enc (fun n => n < 2 ^ 48) enc6 6 := by
  refine ⟨fun _ _ => rfl, fun k k' hk hk' h => ?_⟩
  simp only [enc6, enc4, List.cons_append, List.nil_append, List.cons.injEq, and_true] at h
  have h0 := ofNat_inj h.1
  have h1 := ofNat_inj h.2.1
  have h2 := ofNat_inj h.2.2.1
  have h3 := ofNat_inj h.2.2.2.1
  have h4 := ofNat_inj h.2.2.2.2.1
  have h5 := ofNat_inj h.2.2.2.2.2
  omega

theorem ofNat_eq {n : Nat} {x : UInt8} (h : n % 256 = x.toNat) : UInt8.ofNat n = x := by
  apply UInt8.toNat.inj
  simpa using h

theorem enc4_ld32 (m : Mem) (a : Nat) : enc4 (ld32 m a) = [m a, m (a + 1), m (a + 2), m (a + 3)] := by
  have := u8_lt (m a); have := u8_lt (m (a + 1)); have := u8_lt (m (a + 2)); have := u8_lt (m (a + 3))
  simp only [enc4, ld32, ld16, Nat.add_assoc, Nat.reduceAdd, List.cons.injEq, and_true]
  refine ⟨ofNat_eq ?_, ofNat_eq ?_, ofNat_eq ?_, ofNat_eq ?_⟩ <;> omega

theorem ldMac_lt (m : Mem) (a : Nat) : Bridge.ldMac m a < 2 ^ 48 := by
  have := ld32_lt m a; have := ld16_lt m (a + 4); unfold Bridge.ldMac; omega

theorem enc6_ldMac (m : Mem) (a : Nat) :
    enc6 (Bridge.ldMac m a) = [m a, m (a + 1), m (a + 2), m (a + 3), m (a + 4), m (a + 5)] := by
  have := u8_lt (m a); have := u8_lt (m (a + 1)); have := u8_lt (m (a + 2)); have := u8_lt (m (a + 3))
  have := u8_lt (m (a + 4)); have := u8_lt (m (a + 5))
  simp only [enc6, enc4, Bridge.ldMac, ld32, ld16, Nat.add_assoc, Nat.reduceAdd, List.cons_append, List.nil_append,
    List.cons.injEq, and_true]
  refine ⟨ofNat_eq ?_, ofNat_eq ?_, ofNat_eq ?_, ofNat_eq ?_, ofNat_eq ?_, ofNat_eq ?_⟩ <;> omega

theorem receive_bytes (l : Layout) (s : State) (p : Packet) (o k : Nat) (h : o + k ≤ bufferSize) :
    bytesAt (receive l s p).mem (l.pkt + o) k = (List.range k).map fun i => p.data (o + i) :=
  bytesAt_store_in s.mem l.pkt bufferSize p.data o k h

omit [DecidableEq K] in
theorem sim_receive {V : K → Prop} {enc : K → List UInt8} {l : Layout} {s : State} {tb : Table K} (f : Fits l)
    (r : Sim V enc l s tb) (p : Packet) : Sim V enc l (receive l s p) tb := r.store _ _ _ f.pkt

omit [DecidableEq K] in
theorem sim_putFlow {V : K → Prop} {enc : K → List UInt8} {l : Layout} {s : State} {tb : Table K} (f : Fits l)
    (r : Sim V enc l s tb) (x : Flow) : Sim V enc l (putFlow l s x) tb := r.store _ _ _ f.loc

end Verif.Nf.Low
