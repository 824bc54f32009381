/- Property C64: the policer written in Rust (/repo/nf/rust-policer) and the one written in C. -/
import Verif.Nf.RustPolicer
import Verif.Props.Memory
import Verif.Props.Firewall

set_option autoImplicit false

namespace Verif.Props
open Verif.Nf Verif.Nf.RustPolicer

/-- A configuration table as C sees it: C strings and 64-bit values. -/
def rustItems (items : List (List UInt8 × Nat)) : Prop :=
  (∀ e ∈ items, 0 ∉ e.1) ∧ ∀ e ∈ items, e.2 < 2 ^ 64

theorem rust_ether (p : Packet) : RustPolicer.getIpv4Header p.data 0 =
    (14, decide (ld16 p.data 12 = 0x0008)) := by
  have h : etherTypeOffset = 12 := rfl
  have h2 : (reprC netEtherHeader).2 = 14 := rfl
  simp only [RustPolicer.getIpv4Header, h, h2, Nat.zero_add, Prod.mk.injEq, true_and]
  have hb : ld16 p.data 12 < 65536 := by
    simp only [ld16]
    have := (p.data 12).toNat_lt
    have := (p.data (12 + 1)).toNat_lt
    omega
  generalize ld16 p.data 12 = v at hb
  rw [beq_eq_decide]
  congr 1
  simp only [fromBe16, eq_iff_iff]
  omega

/-- The statics of the C policer. -/
def rustOf (c : Policer.Config) (n : Nat) (s : Policer.State) : Statics :=
  ⟨c.wanDevice, c.rate, c.burst, n, s⟩

theorem rust_refill_le (c : Policer.Config) (b : Policer.Bucket) (t : Nat) :
    Policer.refill c b t ≤ c.burst := by
  simp only [Policer.refill]
  split
  · split <;> omega
  · omega

theorem rust_refill (c : Policer.Config) (n : Nat) (s : Policer.State) (b : Policer.Bucket) (t : Nat)
    (hr : c.rate ≠ 0) :
    RustPolicer.refill .release (rustOf c n s) b t = some (Policer.refill c b t) := by
  have hd : div c.burst c.rate = some (c.burst / c.rate) := if_neg hr
  simp only [RustPolicer.refill, Policer.refill, sub, mul, add, hd, Option.bind_eq_bind,
    Option.bind_some, show (rustOf c n s).rate = c.rate from rfl, show (rustOf c n s).burst = c.burst from rfl]
  split
  · split <;> rfl
  · rfl

theorem rust_known (c : Policer.Config) (n : Nat) (s : Policer.State) (p : Packet) (i : Nat) (hr : c.rate ≠ 0)
    (hb : c.burst < 2 ^ 64) :
    known .release (rustOf c n s) p i =
      (Policer.known c s p.time p.length i).map fun x => (rustOf c n x.1, x.2) := by
  simp only [known, Policer.known, rust_refill c n s _ _ hr, Table.refresh, Option.bind_eq_bind,
    show (rustOf c n s).state = s from rfl]
  cases hp : IndexPool.refresh s.table.pool p.time i with
  | none => rfl
  | some pool =>
    simp only [Option.bind_some]
    cases hbk : s.buckets[i]? with
    | none => rfl
    | some b =>
      simp only [Option.bind_some]
      have hle := rust_refill_le c b p.time
      generalize Policer.refill c b p.time = z at hle
      by_cases hz : z > p.length
      · rw [if_pos hz, if_pos hz, Option.map_some]
        simp only [sub, Option.bind_some, show (2 ^ 64 + z - p.length) % 2 ^ 64 = z - p.length by omega]
        rfl
      · rw [if_neg hz, if_neg hz]; rfl

theorem rust_unknown (c : Policer.Config) (n : Nat) (s : Policer.State) (p : Packet) (a : Nat)
    (hb : c.burst < 2 ^ 64) :
    unknown .release (rustOf c n s) p a =
      (Policer.unknown c s p.time p.length a).map fun x => (rustOf c n x.1, x.2) := by
  simp only [unknown, Policer.unknown, Table.insert, sub, Option.bind_eq_bind, Option.bind_some,
    show (rustOf c n s).burst = c.burst from rfl, show (rustOf c n s).state = s from rfl]
  by_cases hl : p.length > c.burst
  · rw [if_pos hl, if_pos hl]; rfl
  rw [if_neg hl, if_neg hl, show (2 ^ 64 + c.burst - p.length) % 2 ^ 64 = c.burst - p.length by omega]
  cases hbr : IndexPool.borrow s.table.pool p.time with
  | none => rfl
  | some x =>
    obtain ⟨pool, r⟩ := x
    cases r with
    | none => rfl
    | some y =>
      obtain ⟨i, w⟩ := y
      simp only [Option.bind_some]
      have hf : forget s.table i w = Table.dropOld ({ s.table with pool := pool } : Table Nat) i w := by
        cases w with
        | false => rfl
        | true =>
          simp only [forget, Table.dropOld, if_true]
          cases s.table.keys[i]? <;> rfl
      rw [hf]
      cases hd : Table.dropOld ({ s.table with pool := pool } : Table Nat) i w with
      | none => rfl
      | some map =>
        simp only [Option.bind_some]
        cases hw : Table.writeKey (⟨s.table.keys, map, pool⟩ : Table Nat) i a with
        | none => rfl
        | some tb =>
          simp only [Option.bind_some]
          cases hm : tb.map.set a i i with
          | none => rfl
          | some map' =>
            simp only [Option.bind_some]
            split <;> rfl

theorem rust_police (c : Policer.Config) (n : Nat) (s : Policer.State) (p : Packet) (hr : c.rate ≠ 0)
    (hb : c.burst < 2 ^ 64) :
    police .release (rustOf c n s) p 14 =
      if p.device = c.wanDevice then
        (Policer.police c s p.time p.length (ld32 p.data (14 + 16))).map fun x => (rustOf c n x.1, x.2)
      else some (rustOf c n s, true) := by
  simp only [police, show dstAddrOffset = 16 from rfl, show (rustOf c n s).wanDevice = c.wanDevice from rfl,
    show (rustOf c n s).state = s from rfl, Policer.police]
  by_cases hd : p.device = c.wanDevice
  · rw [if_pos hd, if_pos hd]
    cases s.table.map.get (ld32 p.data (14 + 16)) with
    | none => exact rust_unknown c n s p _ hb
    | some i => exact rust_known c n s p i hr hb
  · rw [if_neg hd, if_neg hd]

theorem rust_handle (c : Policer.Config) (n : Nat) (s : Policer.State) (p : Packet) (hr : c.rate ≠ 0)
    (hb : c.burst < 2 ^ 64) :
    RustPolicer.handle .release (rustOf c n s) p =
      (Policer.handle c s p).map fun x => (rustOf c n x.1, x.2) := by
  simp only [RustPolicer.handle, RustPolicer.getEtherHeader, rust_ether, Policer.handle, Nf.getEtherHeader,
    Nf.getIpv4Header, Bool.not_true, Bool.false_eq_true, if_false, Nat.zero_add]
  by_cases he : ld16 p.data 12 = 0x0008
  · simp only [he, decide_true, Bool.not_true, Bool.false_eq_true, if_false, if_true, etherSize,
      rust_police c n s p hr hb]
    by_cases hd : p.device = c.wanDevice
    · rw [if_pos hd, if_pos hd]
      cases Policer.police c s p.time p.length (ld32 p.data (14 + 16)) with
      | none => rfl
      | some x =>
        obtain ⟨s', f⟩ := x
        cases f <;> rfl
    · rw [if_neg hd, if_neg hd]; rfl
  · simp only [he, decide_false, Bool.not_false, if_true, if_false]; rfl

theorem rust_run (c : Policer.Config) (n : Nat) (hr : c.rate ≠ 0) (hb : c.burst < 2 ^ 64) (ps : List Packet) :
    ∀ s, RustPolicer.run .release (rustOf c n s) ps = (Policer.run c s ps).map (·.2) := by
  induction ps with
  | nil => intro s; rfl
  | cons p ps ih =>
    intro s
    simp only [RustPolicer.run, Policer.run, rust_handle c n s p hr hb, Option.bind_eq_bind]
    cases Policer.handle c s p with
    | none => rfl
    | some x =>
      obtain ⟨s', o⟩ := x
      simp only [Option.map_some, Option.bind_some, ih s']
      cases Policer.run c s' ps <;> rfl

/-- What C64 calls the value of a configuration name. -/
def rustValue (items : List (List UInt8 × Nat)) (n : String) : Option Nat := lookup items (name n)

theorem rust_value_lt {items : List (List UInt8 × Nat)} (h : rustItems items) {n : String} {v : Nat}
    (hl : rustValue items n = some v) : v < 2 ^ 64 := by
  simp only [rustValue, lookup, Option.map_eq_some_iff] at hl
  obtain ⟨e, he, rfl⟩ := hl
  exact h.2 e (List.mem_of_find?_eq_some he)

/-- C's nf_init as a function of the values. -/
theorem rust_c_init {items : List (List UInt8 × Nat)} (h : rustItems items) (d : Nat) :
    Policer.nfInit items d =
      if d ≠ 2 then some none else
      match rustValue items "wan device", rustValue items "rate", rustValue items "burst",
        rustValue items "max flows" with
      | some w, some r, some b, some f =>
        if w < 2 ∧ f * 64 ≤ 0xFFFFFFFFFFFFFFFF ∧ r ≠ 0 ∧ b ≠ 0 then
          (Policer.init ⟨w, r, b⟩ f).map fun s => some (⟨w, r, b⟩, s)
        else some none
      | _, _, _, _ => some none := by
  simp only [Policer.nfInit]
  by_cases hd : d ≠ 2
  · rw [if_pos hd, if_pos hd]
  rw [if_neg hd, if_neg hd]
  obtain rfl : d = 2 := by omega
  have c := fun n hn => C06_config_helpers items n h.1 hn h.2
  have g := C06_config_get_partial items (name "wan device") 0 1 h.1 (by decide) (by omega) (.inl rfl)
  simp only [Policer.getDevice, Option.bind_eq_bind, Nat.reduceSub, g, Option.bind_some,
    (c (name "rate") (by decide)).2.1, (c (name "burst") (by decide)).2.1,
    (c (name "max flows") (by decide)).2.2.2.2.2, rustValue]
  cases hw : lookup items (name "wan device") with
  | none => rfl
  | some w =>
    by_cases hw2 : w < 2
    · rw [show Option.filter (fun v => decide (0 ≤ v ∧ v ≤ 1)) (some w) = some w by
        simp [Option.filter]; omega]
      simp only [Option.bind_some, show w % 2 ^ 16 = w by omega]
      cases lookup items (name "rate") with
      | none => rfl
      | some r =>
        cases lookup items (name "burst") with
        | none => rfl
        | some b =>
          cases lookup items (name "max flows") with
          | none => rfl
          | some f =>
            by_cases hf : f * 64 ≤ 0xFFFFFFFFFFFFFFFF
            · rw [show Option.filter (fun v => decide (v * 64 ≤ 0xFFFFFFFFFFFFFFFF)) (some f) = some f by
                simp [Option.filter]; omega]
              by_cases hrb : r = 0 ∨ b = 0
              · simp only [if_pos hrb]
                rw [if_neg (by omega)]
              · simp only [if_neg hrb]
                try dsimp only
                rw [if_pos (by omega)]
                cases Policer.init ⟨w, r, b⟩ f <;> rfl
            · rw [show Option.filter (fun v => decide (v * 64 ≤ 0xFFFFFFFFFFFFFFFF)) (some f) = none by
                simp [Option.filter]; omega]
              ((try dsimp only); rw [if_neg (by omega)])
    · rw [show Option.filter (fun v => decide (0 ≤ v ∧ v ≤ 1)) (some w) = none by
        simp [Option.filter]; omega]
      simp only [Option.bind_some]
      cases lookup items (name "rate") <;> cases lookup items (name "burst") <;>
        cases lookup items (name "max flows") <;> first | rfl | ((try dsimp only); rw [if_neg (by omega)])

/-- Rust's nf_init as a function of the values. -/
theorem rust_init {items : List (List UInt8 × Nat)} (h : rustItems items) (d : Nat) (m : Build) :
    RustPolicer.init m items d =
      if d ≠ 2 then some none else
      match rustValue items "wan device", rustValue items "rate", rustValue items "burst",
        rustValue items "max flows" with
      | some w, some r, some b, some f =>
        if w < 2 ∧ f * 64 ≤ 0xFFFFFFFFFFFFFFFF ∧ r ≠ 0 ∧ b ≠ 0 ∧ f ≠ 0 then
          (mul m 1000000000 b).bind fun t => (Table.alloc 0 f (t / r)).map fun tb =>
            some ⟨w, r, b, f, ⟨tb, List.replicate f ⟨0, 0⟩⟩⟩
        else some none
      | _, _, _, _ => some none := by
  simp only [RustPolicer.init]
  by_cases hd : d ≠ 2
  · rw [if_pos hd, if_pos hd]
  rw [if_neg hd, if_neg hd]
  obtain rfl : d = 2 := by omega
  have c := fun n hn => (C06_config_helpers items n h.1 hn h.2).1
  simp only [Option.bind_eq_bind, c (name "wan device") (by decide), c (name "rate") (by decide),
    c (name "burst") (by decide), c (name "max flows") (by decide), Option.bind_some, rustValue]
  cases hw : lookup items (name "wan device") with
  | none => rfl
  | some w =>
    by_cases hw2 : w ≥ 2
    · simp only [if_pos hw2]
      cases lookup items (name "rate") <;> cases lookup items (name "burst") <;>
        cases lookup items (name "max flows") <;> first | rfl | ((try dsimp only); rw [if_neg (by omega)])
    simp only [if_neg hw2, show w % 2 ^ 16 = w by omega]
    cases lookup items (name "rate") with
    | none => rfl
    | some r =>
      by_cases hr : r = 0
      · simp only [if_pos hr]
        cases lookup items (name "burst") <;>
          cases lookup items (name "max flows") <;> first | rfl | ((try dsimp only); rw [if_neg (by omega)])
      simp only [if_neg hr]
      cases lookup items (name "burst") with
      | none => rfl
      | some b =>
        by_cases hb : b = 0
        · simp only [if_pos hb]
          cases lookup items (name "max flows") <;> first | rfl | ((try dsimp only); rw [if_neg (by omega)])
        simp only [if_neg hb]
        cases lookup items (name "max flows") with
        | none => rfl
        | some f =>
          by_cases hf : f = 0 ∨ f > (2 ^ 64 - 1) / 64
          · simp only [if_pos hf]
            rw [if_neg (by omega)]
          simp only [if_neg hf]
          try dsimp only
          rw [if_pos (by omega)]
          cases mul m 1000000000 b with
          | none => rfl
          | some t =>
            simp only [Option.bind_some, div, if_neg hr, Table.alloc, Option.bind_eq_bind]
            cases IndexPool.alloc f (t / r) <;> rfl

/-- C64 (the same program): for every configuration, every number of devices and every packet
sequence, the Rust policer as its Makefile builds it does the same as the C policer: it starts if
that does, and emits the same packets on the same devices in the same order, except that it does not
start when no flows are asked for. -/
theorem C64_same (items : List (List UInt8 × Nat)) (h : rustItems items) (d : Nat) (ps : List Packet) :
    RustPolicer.program .release items d ps =
      if rustValue items "max flows" = some 0 then some none else Policer.program items d ps := by
  simp only [RustPolicer.program, Policer.program, rust_init h, rust_c_init h, Option.bind_eq_bind]
  by_cases hd : d ≠ 2
  · simp only [if_pos hd]
    split <;> rfl
  simp only [if_neg hd]
  cases hw : rustValue items "wan device" with
  | none => exact (ite_self _).symm
  | some w =>
    cases hr : rustValue items "rate" with
    | none => exact (ite_self _).symm
    | some r =>
      cases hb : rustValue items "burst" with
      | none => exact (ite_self _).symm
      | some b =>
        cases hf : rustValue items "max flows" with
        | none => rfl
        | some f =>
          simp only [Option.some.injEq]
          by_cases hz : f = 0
          · rw [if_pos hz, if_neg (by omega)]; rfl
          rw [if_neg hz]
          by_cases ho : w < 2 ∧ f * 64 ≤ 0xFFFFFFFFFFFFFFFF ∧ r ≠ 0 ∧ b ≠ 0
          · rw [if_pos ho, if_pos (by omega)]
            have hrb : ¬(r = 0 ∨ b = 0) := by omega
            simp only [mul, Option.bind_some, Policer.init, if_neg hrb]
            cases ht : Table.alloc 0 f (1000000000 * b % 2 ^ 64 / r) with
            | none => rfl
            | some tb =>
              simp only [Option.map_some, Option.bind_some, Option.bind_eq_bind]
              have := rust_run ⟨w, r, b⟩ f ho.2.2.1 (rust_value_lt h hb) ps ⟨tb, List.replicate f ⟨0, 0⟩⟩
              simp only [rustOf] at this
              rw [this]
              cases Policer.run ⟨w, r, b⟩ ⟨tb, List.replicate f ⟨0, 0⟩⟩ ps <;> rfl
          · rw [if_neg ho, if_neg fun x => ho ⟨x.1, x.2.1, x.2.2.1, x.2.2.2.1⟩]; rfl

/-- A table with the four values. -/
def rustTable (w f r b : Nat) : List (List UInt8 × Nat) :=
  [(name "wan device", w), (name "max flows", f), (name "rate", r), (name "burst", b)]

/-- nf/rust-policer/config and nf/policer/config (they are the same). -/
def rustShipped : List (List UInt8 × Nat) := rustTable 0 65536 (10 ^ 15) (10 ^ 15)

/-- An IPv4 packet of this length to the address 10.0.0.`a`. -/
def rustSample (device a length time : Nat) : Packet :=
  { data := fun x => if x = 12 then 8 else if x = 30 then 10 else if x = 33 then UInt8.ofNat a else 0,
    length := length, time := time, device := device }

/-- The device of each packet sent. -/
def rustSent (o : List Out) : List (Nat × Nat) :=
  o.filterMap fun
    | .transmit p d false => some (p.length, d)
    | _ => none

/-- A case of `C64_same`: of three packets to an address two fit in the burst; a fourth packet goes the
other way. -/
example : rustItems (rustTable 1 2 1 100) ∧ rustValue (rustTable 1 2 1 100) "max flows" ≠ some 0 ∧
    (RustPolicer.program .release (rustTable 1 2 1 100) 2
      [rustSample 1 7 60 5, rustSample 1 7 60 6, rustSample 1 7 30 7, rustSample 0 7 60 8]).map
      (·.map (·.map rustSent)) = some (some [[(60, 0)], [], [(30, 0)], [(60, 1)]]) := by
  refine ⟨⟨by decide, by decide⟩, by decide, by decide⟩

/-- C64 is false of tables without room: the C policer starts (and drops every packet from the WAN), the
Rust policer does not. -/
theorem C64_no_flows_wrong : rustItems (rustTable 1 0 1 100) ∧
    (Policer.program (rustTable 1 0 1 100) 2 [rustSample 1 7 60 5, rustSample 0 7 60 6]).map
      (·.map (·.map rustSent)) = some (some [[], [(60, 1)]]) ∧
    RustPolicer.program .release (rustTable 1 0 1 100) 2 [rustSample 1 7 60 5, rustSample 0 7 60 6] =
      some none := by
  refine ⟨⟨by decide, by decide⟩, by decide, rfl⟩

/-- The buckets are no larger than the burst, and were last changed by `now`. -/
def rustInv (c : Statics) (now : Nat) : Prop :=
  ∀ b ∈ c.state.buckets, b.size ≤ c.burst ∧ b.time ≤ now

theorem rust_inv_set {c : Statics} {now : Nat} (h : rustInv c now) {tb : Table Nat} {i z t : Nat}
    (hz : z ≤ c.burst) (ht : now ≤ t) :
    rustInv { c with state := ⟨tb, c.state.buckets.set i ⟨z, t⟩⟩ } t := by
  intro b hb
  rcases List.mem_or_eq_of_mem_set hb with hb | rfl
  · exact ⟨(h b hb).1, Nat.le_trans (h b hb).2 ht⟩
  · exact ⟨hz, Nat.le_refl _⟩

theorem rust_refill_debug {c : Statics} (hb : 1000000000 * c.burst < 2 ^ 64) {b : Policer.Bucket}
    {t : Nat} (h : b.size ≤ c.burst ∧ b.time ≤ t) (ht : t < 2 ^ 64) :
    RustPolicer.refill .debug c b t = RustPolicer.refill .release c b t := by
  have hs : (2 ^ 64 + t - b.time) % 2 ^ 64 = t - b.time := by omega
  simp only [RustPolicer.refill, sub, if_pos h.2, hs, div, Option.bind_eq_bind, Option.bind_some]
  by_cases hr : c.rate = 0
  · simp only [if_pos hr, Option.bind_none]
  simp only [if_neg hr, Option.bind_some]
  split
  case isFalse => rfl
  case isTrue hlt =>
    have hm : (t - b.time) * c.rate ≤ c.burst :=
      Nat.le_trans (Nat.mul_le_mul_right _ (Nat.le_of_lt hlt)) (Nat.div_mul_le_self _ _)
    have h1 : (t - b.time) * c.rate < 2 ^ 64 := by omega
    have h2 : b.size + (t - b.time) * c.rate < 2 ^ 64 := by omega
    simp only [mul, add, if_pos h1, Option.bind_some, if_pos h2, Nat.mod_eq_of_lt h1, Nat.mod_eq_of_lt h2]

theorem rust_police_debug {c : Statics} {now : Nat} {p : Packet} {ip : Nat}
    (hb : 1000000000 * c.burst < 2 ^ 64) (hi : rustInv c now) (hn : now ≤ p.time) (ht : p.time < 2 ^ 64) :
    police .debug c p ip = police .release c p ip ∧
    ∀ r, police .release c p ip = some r → rustInv r.1 p.time ∧ r.1.burst = c.burst := by
  have same : rustInv c p.time := fun b hb => ⟨(hi b hb).1, Nat.le_trans (hi b hb).2 hn⟩
  simp only [police]
  by_cases hd : p.device = c.wanDevice
  case neg =>
    rw [if_neg hd, if_neg hd]
    exact ⟨rfl, fun r hr => by cases hr; exact ⟨same, rfl⟩⟩
  simp only [if_pos hd]
  cases hg : c.state.table.map.get (ld32 p.data (ip + dstAddrOffset)) with
  | some i =>
    simp only [known, Option.bind_eq_bind]
    cases IndexPool.refresh c.state.table.pool p.time i with
    | none => exact ⟨rfl, fun r hr => by cases hr⟩
    | some pool =>
      simp only [Option.bind_some]
      cases hbk : c.state.buckets[i]? with
      | none => exact ⟨rfl, fun r hr => by cases hr⟩
      | some b =>
        have hbi := hi b (List.mem_of_getElem? hbk)
        simp only [Option.bind_some, rust_refill_debug hb ⟨hbi.1, Nat.le_trans hbi.2 hn⟩ ht]
        cases hz : RustPolicer.refill .release c b p.time with
        | none => exact ⟨rfl, fun r hr => by cases hr⟩
        | some z =>
          have hle : z ≤ c.burst := by
            simp only [RustPolicer.refill, sub, mul, add, div, Option.bind_eq_bind, Option.bind_some] at hz
            by_cases hr : c.rate = 0
            · rw [if_pos hr] at hz; cases hz
            rw [if_neg hr, Option.bind_some] at hz
            split at hz
            · split at hz <;> cases hz <;> omega
            · cases hz; omega
          simp only [Option.bind_some]
          by_cases hzl : z > p.length
          · simp only [if_pos hzl, sub, show p.length ≤ z by omega, if_true, Option.bind_some,
              show (2 ^ 64 + z - p.length) % 2 ^ 64 = z - p.length by omega]
            exact ⟨trivial, fun r hr => by cases hr; exact ⟨rust_inv_set hi (by omega) hn, rfl⟩⟩
          · simp only [if_neg hzl]
            exact ⟨trivial, fun r hr => by cases hr; exact ⟨rust_inv_set hi hle hn, rfl⟩⟩
  | none =>
    simp only [unknown, Option.bind_eq_bind]
    by_cases hl : p.length > c.burst
    · simp only [if_pos hl]
      exact ⟨trivial, fun r hr => by cases hr; exact ⟨same, rfl⟩⟩
    simp only [if_neg hl]
    cases IndexPool.borrow c.state.table.pool p.time with
    | none => exact ⟨rfl, fun r hr => by cases hr⟩
    | some x =>
      obtain ⟨pool, y⟩ := x
      simp only [Option.bind_some]
      cases y with
      | none => exact ⟨rfl, fun r hr => by cases hr; exact ⟨same, rfl⟩⟩
      | some y =>
        obtain ⟨i, w⟩ := y
        simp only [sub, show p.length ≤ c.burst by omega, if_true, Option.bind_some,
          show (2 ^ 64 + c.burst - p.length) % 2 ^ 64 = c.burst - p.length by omega]
        refine ⟨trivial, fun r hr => ?_⟩
        simp only [Option.bind_eq_some_iff] at hr
        obtain ⟨map, _, tb, _, map', _, hr⟩ := hr
        split at hr
        · cases hr; exact ⟨rust_inv_set hi (by omega) hn, rfl⟩
        · cases hr

theorem rust_run_debug (ps : List Packet) : ∀ (c : Statics) (now : Nat), 1000000000 * c.burst < 2 ^ 64 →
    rustInv c now → MonoFrom now ps → (∀ p ∈ ps, p.time < 2 ^ 64 ∧ p.device < 2) →
    RustPolicer.run .debug c ps = RustPolicer.run .release c ps := by
  induction ps with
  | nil => intro c now _ _ _ _; rfl
  | cons p ps ih =>
    intro c now hb hi hm hp
    have hpp := hp p (List.mem_cons_self ..)
    have ⟨hq, hr⟩ := rust_police_debug (ip := 14) hb hi hm.1 hpp.1
    simp only [RustPolicer.run, RustPolicer.handle, RustPolicer.getEtherHeader, rust_ether, hq,
      Option.bind_eq_bind, Bool.not_true, Bool.false_eq_true, if_false]
    have next : ∀ c', rustInv c' p.time → c'.burst = c.burst →
        RustPolicer.run .debug c' ps = RustPolicer.run .release c' ps :=
      fun c' h1 h2 => ih c' p.time (h2 ▸ hb) h1 hm.2 fun q hq => hp q (List.mem_cons_of_mem _ hq)
    have same := next c (fun b hb => ⟨(hi b hb).1, Nat.le_trans (hi b hb).2 hm.1⟩) rfl
    by_cases he : ld16 p.data 12 = 0x0008
    · simp only [he, decide_true, Bool.not_true, Bool.false_eq_true, if_false]
      cases hx : police .release c p 14 with
      | none => rfl
      | some x =>
        have ⟨h1, h2⟩ := hr x hx
        obtain ⟨c', f⟩ := x
        simp only [Option.bind_some]
        cases f with
        | false => simp only [Bool.false_eq_true, if_false, Option.bind_some, next c' h1 h2]
        | true =>
          simp only [if_true, sub, show p.device ≤ 1 by omega, Option.bind_some,
            show (2 ^ 16 + 1 - p.device) % 2 ^ 16 = 1 - p.device by omega, next c' h1 h2]
    · simp only [he, decide_false, Bool.not_false, if_true, Option.bind_some, same]

/-- C64 for the debug profile, where arithmetic panics instead of wrapping around: if 1000000000 times
the burst fits into 64 bits, the clock does not go back, and packets come from the two devices, then it
does not panic where the release build works: both do the same. What is missing: larger bursts, for
which it is false, see `C64_shipped_debug_wrong`. -/
theorem C64_debug_partial (items : List (List UInt8 × Nat)) (h : rustItems items) (d : Nat)
    (ps : List Packet) (hb : ∀ b, rustValue items "burst" = some b → 1000000000 * b < 2 ^ 64)
    (hm : MonoFrom 0 ps) (hp : ∀ p ∈ ps, p.time < 2 ^ 64 ∧ p.device < 2) :
    RustPolicer.program .debug items d ps = RustPolicer.program .release items d ps := by
  simp only [RustPolicer.program, rust_init h]
  by_cases hd : d ≠ 2
  · simp only [if_pos hd]; rfl
  simp only [if_neg hd]
  split
  case h_2 => rfl
  case h_1 w r b f _ _ hbv _ =>
    have hb := hb b hbv
    split
    case isFalse => rfl
    case isTrue =>
      simp only [mul, if_pos hb, Nat.mod_eq_of_lt hb, Option.bind_some]
      cases Table.alloc 0 f (1000000000 * b / r) with
      | none => rfl
      | some tb =>
        simp only [Option.map_some, Option.bind_eq_bind, Option.bind_some]
        rw [rust_run_debug ps _ 0 hb (fun b hb => by cases List.eq_of_mem_replicate hb; exact ⟨Nat.zero_le _, Nat.le_refl _⟩) hm hp]

example : rustItems (rustTable 1 2 1 100) ∧ (∀ b, rustValue (rustTable 1 2 1 100) "burst" = some b → 1000000000 * b < 2 ^ 64) ∧
    MonoFrom 0 [rustSample 1 7 60 5, rustSample 1 7 60 6, rustSample 0 7 60 8] ∧
    (RustPolicer.program .debug (rustTable 1 2 1 100) 2
      [rustSample 1 7 60 5, rustSample 1 7 60 6, rustSample 0 7 60 8]).map (·.map (·.map rustSent)) =
      some (some [[(60, 0)], [], [(60, 1)]]) := by
  refine ⟨⟨by decide, by decide⟩, fun b hb => ?_, by simp [MonoFrom, rustSample], by decide⟩
  cases hb; decide

/-- With the debug profile, nf_init panics on the configuration that is shipped: a second of tokens
does not fit in 64 bits. (The release build goes on with the product modulo 2^64, as C does.) -/
theorem C64_shipped_debug_wrong : rustItems rustShipped ∧ RustPolicer.init .debug rustShipped 2 = none ∧
    ∀ ps, RustPolicer.program .debug rustShipped 2 ps = none := by
  have hi : rustItems rustShipped := ⟨by decide, by decide⟩
  have h : RustPolicer.init .debug rustShipped 2 = none := by
    rw [rust_init hi]; rfl
  refine ⟨hi, h, fun ps => ?_⟩
  simp only [RustPolicer.program, h]; rfl

/-- C64 (layout): the fields that the Rust code reads through the structures of defs.rs are where the
C structures of packet.h have them: the packet's length, time and device (the C structure is not packed;
8-byte pointers), the ether type at 12, the IPv4 header at 14 and the destination at 16 in it. The
addresses of the Ethernet header are the other way round in Rust, but nothing reads them. -/
theorem C64_layout : (reprC netPacket) = ([0, 8, 16, 24, 26, 32], 40) ∧
    (reprC netEtherHeader) = ([0, 6, 12], 14) ∧
    (reprC netIPv4Header) = ([0, 1, 2, 4, 6, 8, 9, 10, 12, 16], 20) ∧
    etherTypeOffset = 12 ∧ dstAddrOffset = 16 := ⟨rfl, rfl, rfl, rfl, rfl⟩

/-- The destination address that the Rust code refers to is never aligned, if the packet's data is
aligned to four bytes: `&mut (*ipv4_header).dst_addr` (lib.rs:99) and the read in lib.rs:132 are then undefined
behaviour in Rust, where C reads a packed structure. -/
theorem C64_misaligned_wrong (data : Nat) (h : data % 4 = 0) :
    (data + (reprC netEtherHeader).2 + dstAddrOffset) % 4 ≠ 0 := by
  have h1 : (reprC netEtherHeader).2 = 14 := rfl
  have h2 : dstAddrOffset = 16 := rfl
  omega

example : 0x7f0000001000 % 4 = 0 := by decide

end Verif.Props
