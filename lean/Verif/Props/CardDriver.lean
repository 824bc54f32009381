/-
C67: the accesses that `driverOps` lists are those of the driver, as modelled in Verif.Env.IxgbeDevice and Verif.Env.IxgbeSetup.
-/
import Verif.Props.CardSpec
import Verif.Props.IxgbeDevice
import Verif.Props.IxgbeSetup

set_option autoImplicit false

namespace Verif.Props
open Verif.Tool Verif.Tool.Registers Verif.Tool.CardSpec

namespace Card
open Verif.IxgbeDevice Verif.IxgbeRegs

/-- What a real device goes through while the driver makes the given accesses, in order, and no others, except that it may sleep and
poll registers, that is, read again what it expects something of. -/
inductive Ran (hw : Hw) : List Op → Dev → Dev → Prop
  | nil (d : Dev) : Ran hw [] d d
  | pause {ops : List Op} {d d1 d2 : Dev} (ns : Nat) (h : sleep hw ns d = some ((), d1)) : Ran hw ops d1 d2 → Ran hw ops d d2
  | again {ops : List Op} {d d1 d2 : Dev} {a : Nat} {f v : BitVec 32} {b : Bool} (h : rd hw a d = some (v, d1)) :
    Ran hw (.expect a f b :: ops) d1 d2 → Ran hw (.expect a f b :: ops) d d2
  | expect {ops : List Op} {d d1 d2 : Dev} {a : Nat} {f v : BitVec 32} {b : Bool} (h : rd hw a d = some (v, d1)) (hb : (v &&& f == 0#32) = b) :
    Ran hw ops d1 d2 → Ran hw (.expect a f b :: ops) d d2
  | read {ops : List Op} {d d1 d2 : Dev} {a : Nat} {v : BitVec 32} (h : rd hw a d = some (v, d1)) : Ran hw ops d1 d2 → Ran hw (.read a :: ops) d d2
  | write {ops : List Op} {d d1 d2 : Dev} {a : Nat} {v : BitVec 32} (h : wr hw a v d = some ((), d1)) :
    Ran hw ops d1 d2 → Ran hw (.write a (.bvv 32 v.toNat) :: ops) d d2
  | modify {ops : List Op} {d d1 d2 d3 : Dev} {a : Nat} {m n v : BitVec 32} (h : rd hw a d = some (v, d1))
    (h' : wr hw a ((v &&& ~~~m) ||| n) d1 = some ((), d2)) : Ran hw ops d2 d3 → Ran hw (.modify a m n :: ops) d d3
  | pciRead {ops : List Op} {d d1 d2 : Dev} {a : Nat} {v : BitVec 32} (h : IxgbeDevice.pciRead a d = some (v, d1)) :
    Ran hw ops d1 d2 → Ran hw (.pciRead a :: ops) d d2
  | pciModify {ops : List Op} {d d1 d2 d3 : Dev} {a : Nat} {m n v : BitVec 32} (h : IxgbeDevice.pciRead a d = some (v, d1))
    (h' : IxgbeDevice.pciWrite a ((v &&& ~~~m) ||| n) d1 = some ((), d2)) : Ran hw ops d2 d3 → Ran hw (.pciModify a m n :: ops) d d3

theorem Ran.append {hw : Hw} {l l' : List Op} {d d1 d2 : Dev} (h : Ran hw l d d1) (h' : Ran hw l' d1 d2) : Ran hw (l ++ l') d d2 := by
  induction h with
  | nil => exact h'
  | pause ns e _ ih => exact .pause ns e (ih h')
  | again e _ ih => exact .again e (ih h')
  | expect e e' _ ih => exact .expect e e' (ih h')
  | read e _ ih => exact .read e (ih h')
  | write e _ ih => exact .write e (ih h')
  | modify e e' _ ih => exact .modify e e' (ih h')
  | pciRead e _ ih => exact .pciRead e (ih h')
  | pciModify e e' _ ih => exact .pciModify e e' (ih h')

/-- A part of the driver makes these accesses, if it succeeds. -/
def Does {α : Type} (hw : Hw) (ops : List Op) (m : M α) : Prop := ∀ d a d', m d = some (a, d') → Ran hw ops d d'

section Does
variable {hw : Hw} {α β : Type}

theorem does_bind {l l' : List Op} {m : M α} {k : α → M β} (h : Does hw l m) (h' : ∀ a, Does hw l' (k a)) : Does hw (l ++ l') (m >>= k) := by
  intro d b d' e
  obtain ⟨a, d1, e1, e2⟩ := dev_bind e
  exact (h _ _ _ e1).append (h' a _ _ _ e2)

theorem does_pure (a : α) : Does hw [] (pure a : M α) := by
  intro d b d' e
  rw [(dev_pure e).2]
  exact .nil d

theorem does_fatal (b : Bool) : Does hw [] (onlyIf b fatal) := by
  intro d u d' e
  rw [(dev_fatalIf e).2]
  exact .nil d

theorem does_sleep (ns : Nat) : Does hw [] (sleep hw ns) := by
  intro d u d' e
  exact .pause ns e (.nil d')

theorem does_wr (a : Nat) (v : BitVec 32) : Does hw [.write a (const v)] (wr hw a v) := by
  intro d u d' e
  exact .write e (.nil d')

theorem does_rd (a : Nat) : Does hw [.read a] (rd hw a) := by
  intro d v d' e
  exact .read e (.nil d')

theorem does_setF (a : Nat) (f : BitVec 32) : Does hw [setBits a f] (setF hw a f) := by
  intro d u d' e
  obtain ⟨v, d1, e1, e2⟩ := dev_bind e
  refine .modify e1 ?_ (.nil d')
  rw [← e2]
  congr 1
  apply BitVec.eq_of_getLsbD_eq
  intro i hi
  simp only [BitVec.getLsbD_or, BitVec.getLsbD_and, BitVec.getLsbD_not, hi, decide_true, Bool.true_and]
  cases f.getLsbD i <;> simp

theorem does_wrField (a : Nat) (f v : BitVec 32) {s : Nat} (hs : findFirstSet f = some s) : Does hw [.modify a f (v <<< s)] (wrField hw a f v) := by
  intro d u d' e
  obtain ⟨o, d1, e1, e2⟩ := dev_bind e
  obtain ⟨s', d2, e3, e4⟩ := dev_bind e2
  obtain ⟨h1, rfl⟩ := dev_shiftOf e3
  rw [hs] at h1
  cases h1
  exact .modify e1 e4 (.nil d')

theorem does_clearF (a : Nat) (f : BitVec 32) {s : Nat} (hs : findFirstSet f = some s) : Does hw [clearBits a f] (clearF hw a f) := by
  have := does_wrField (hw := hw) a f 0#32 hs
  rwa [BitVec.zero_shiftLeft] at this

theorem does_loop {body : Nat → M Unit} {f : Nat → List Op} : ∀ k a, (∀ n, a ≤ n → n < a + k → Does hw (f n) (body n)) →
    Does hw ((List.range' a k).flatMap f) (loop body k a)
  | 0, a, _ => does_pure ()
  | k + 1, a, h => by
    rw [List.range'_succ, List.flatMap_cons]
    exact does_bind (h a (Nat.le_refl _) (by omega)) fun _ => does_loop k (a + 1) fun n h1 h2 => h n (by omega) (by omega)

theorem does_loop1 {body : Nat → M Unit} {f : Nat → Op} (k a : Nat) (h : ∀ n, Does hw [f n] (body n)) :
    Does hw ((List.range' a k).map f) (loop body k a) := by
  have := does_loop (hw := hw) (body := body) (f := fun n => [f n]) k a fun n _ _ => h n
  rwa [List.map_eq_flatMap]

theorem does_loop0 {body : Nat → M Unit} {f : Nat → Op} (k : Nat) (h : ∀ n, Does hw [f n] (body n)) :
    Does hw ((List.range k).map f) (loop body k 0) := by
  rw [List.range_eq_range']
  exact does_loop1 k 0 h

/-- A field that is read. -/
theorem cleared_ran {a : Nat} {f : BitVec 32} (hf : f ≠ 0#32) {d d' : Dev} {b : Bool} (h : cleared hw a f d = some (b, d')) :
    ∃ v, rd hw a d = some (v, d') ∧ (v &&& f == 0#32) = b := by
  obtain ⟨-, h2⟩ := dev_cleared hf h
  unfold cleared rdField at h
  obtain ⟨v, d1, h, h3⟩ := dev_bind h
  obtain ⟨o, d2, h4, h⟩ := dev_bind h
  obtain ⟨s, d3, h5, h6⟩ := dev_bind h
  obtain ⟨-, rfl⟩ := dev_shiftOf h5
  obtain ⟨-, rfl⟩ := dev_pure h6
  obtain ⟨-, rfl⟩ := dev_pure h3
  refine ⟨o, h4, ?_⟩
  obtain ⟨-, rfl⟩ := dev_rd h4
  rw [Bool.eq_iff_iff, h2, beq_iff_eq]
  constructor
  · intro e i hi
    have := congrArg (fun x => BitVec.getLsbD x i) e
    simp only [BitVec.getLsbD_and, hi, Bool.and_true, BitVec.getLsbD_zero] at this
    exact this
  · intro e
    apply BitVec.eq_of_getLsbD_eq
    intro i hi
    rw [BitVec.getLsbD_and, BitVec.getLsbD_zero]
    cases hfi : f.getLsbD i with
    | false => simp
    | true => rw [e i hfi]; rfl

theorem poll_ran {a : Nat} {f : BitVec 32} (hf : f ≠ 0#32) {us : Nat} {neg : Bool} {cond : M Bool}
    (hc : ∀ d b d', cond d = some (b, d') → cleared hw a f d = some (neg != b, d')) :
    ∀ k d r d', poll hw us cond (k + 1) d = some (r, d') → Ran hw [.expect a f (neg != r)] d d'
  | k, d, r, d', h => by
    rw [poll] at h
    obtain ⟨b, d1, e1, e2⟩ := dev_bind h
    obtain ⟨v, e3, e4⟩ := cleared_ran hf (hc _ _ _ e1)
    cases b with
    | false =>
      obtain ⟨rfl, rfl⟩ := dev_pure e2
      exact .expect e3 e4 (.nil _)
    | true =>
      obtain ⟨u, d2, e5, e6⟩ := dev_bind e2
      cases k with
      | zero =>
        rw [poll] at e6
        obtain ⟨rfl, rfl⟩ := dev_pure e6
        exact .expect e3 e4 (.pause _ e5 (.nil _))
      | succ k => exact .again e3 (.pause _ e5 (poll_ran hf hc k d2 r d' e6))

theorem after_ran {a : Nat} {f : BitVec 32} (hf : f ≠ 0#32) {us : Nat} {neg : Bool} {cond : M Bool}
    (hc : ∀ d b d', cond d = some (b, d') → cleared hw a f d = some (neg != b, d')) {d d' : Dev} {r : Bool}
    (h : afterTimeout hw us cond d = some (r, d')) : Ran hw [.expect a f (neg != r)] d d' := by
  obtain ⟨u, d1, e1, e2⟩ := dev_bind h
  exact .pause _ e1 (poll_ran hf hc 9 d1 r d' e2)

/-- `IF_AFTER_TIMEOUT(..., cond) { fatal }`. -/
theorem does_after {a : Nat} {f : BitVec 32} (hf : f ≠ 0#32) {us : Nat} {neg : Bool} {cond : M Bool}
    (hc : ∀ d b d', cond d = some (b, d') → cleared hw a f d = some (neg != b, d')) :
    Does hw [.expect a f neg] (do onlyIf (← afterTimeout hw us cond) fatal) := by
  intro d u d' h
  obtain ⟨r, d1, e1, e2⟩ := dev_bind h
  obtain ⟨rfl, rfl⟩ := dev_fatalIf e2
  have := after_ran hf hc e1
  simpa using this

theorem cond_cleared {a : Nat} {f : BitVec 32} : ∀ d b d', cleared hw a f d = some (b, d') → cleared hw a f d = some (false != b, d') := by
  intro d b d' h
  simpa using h

theorem cond_set {a : Nat} {f : BitVec 32} : ∀ d b d', negated (cleared hw a f) d = some (b, d') → cleared hw a f d = some (true != b, d') := by
  intro d b d' h
  have := dev_negated h
  simpa using this

/-! ### The set-up of a device -/

theorem does_disableQueue (q : Nat) : Does hw (disableOps q) (disableQueue hw q) :=
  does_bind (l := [_]) (does_clearF _ _ (s := 25) (by decide)) fun _ => does_after (dev_bit_ne 25 (by decide)) cond_set

/-- ixgbe.c:559-586, what is done if the device does not stop. -/
def flushOps : List Op :=
  [.pciRead 0xAA, setBits HLREG0 (bit 15), clearBits RXCTRL (bit 0), setBits GCREXT (bit 30), clearBits HLREG0 (bit 15), clearBits GCREXT (bit 30), setBits CTRL (bit 26)]

/-- ixgbe.c:551-586, of a device that does not stop. -/
def stuckOps : List Op := [setBits CTRL (bit 2), .expect STATUS (bit 19) false] ++ flushOps

theorem does_pciRead (a : Nat) : Does hw [.pciRead a] (IxgbeDevice.pciRead a) := by
  intro d v d' e
  exact .pciRead e (.nil d')

theorem does_pciCleared (a : Nat) (f : BitVec 32) : Does hw [.pciRead a] (pciCleared a f) :=
  does_bind (l' := []) (does_pciRead a) fun _ => does_pure _

theorem does_pciSet (a : Nat) (f : BitVec 32) : Does hw [.pciModify a f f] (pciSet a f) := by
  intro d u d' e
  obtain ⟨v, d1, e1, e2⟩ := dev_bind e
  refine .pciModify e1 ?_ (.nil d')
  rw [← e2]
  congr 1
  apply BitVec.eq_of_getLsbD_eq
  intro i hi
  simp only [BitVec.getLsbD_or, BitVec.getLsbD_and, BitVec.getLsbD_not, hi, decide_true, Bool.true_and]
  cases f.getLsbD i <;> simp

theorem does_flush : Does hw flushOps (flush hw) := by
  refine does_bind (l := [_]) (does_pciCleared _ _) fun _ => ?_
  refine does_bind (l := []) (does_fatal _) fun _ => ?_
  refine does_bind (l := [_]) (does_setF _ _) fun _ => ?_
  refine does_bind (l := [_]) (does_clearF _ _ (s := 0) (by decide)) fun _ => ?_
  refine does_bind (l := [_]) (does_setF _ _) fun _ => ?_
  refine does_bind (l := []) (does_sleep _) fun _ => ?_
  refine does_bind (l := [_]) (does_clearF _ _ (s := 15) (by decide)) fun _ => ?_
  refine does_bind (l := [_]) (does_clearF _ _ (s := 30) (by decide)) fun _ => ?_
  refine does_bind (l := [_]) (l' := []) (does_setF _ _) fun _ => does_sleep _

theorem does_initPci : Does hw pciOps initPci := by
  refine does_bind (l := [_]) (does_pciRead _) fun _ => ?_
  refine does_bind (l := []) (does_fatal _) fun _ => ?_
  refine does_bind (l := [_]) (does_pciCleared _ _) fun _ => ?_
  refine does_bind (l := []) (does_fatal _) fun _ => ?_
  refine does_bind (l := [_]) (does_pciSet _ _) fun _ => ?_
  refine does_bind (l := [_]) (does_pciSet _ _) fun _ => ?_
  refine does_bind (l := [_]) (does_pciSet _ _) fun _ => ?_
  refine does_bind (l := [_]) (does_pciRead _) fun _ => ?_
  refine does_bind (l := []) (does_fatal _) fun _ => ?_
  exact does_bind (l := [_]) (l' := []) (does_pciRead _) fun _ => does_pure _

theorem initStop_ran {d d' : Dev} {u : Unit} (h : initStop hw d = some (u, d')) :
    Ran hw ((List.range 128).flatMap disableOps ++ stopOps) d d' ∨ Ran hw ((List.range 128).flatMap disableOps ++ stuckOps) d d' := by
  obtain ⟨_, d1, e1, e⟩ := dev_bind h
  obtain ⟨_, d2, e2, e⟩ := dev_bind e
  obtain ⟨r, d3, e3, e⟩ := dev_bind e
  have h1 : Ran hw ((List.range 128).flatMap disableOps) d d1 := by
    rw [List.range_eq_range']
    exact does_loop 128 0 (fun n _ _ => does_disableQueue n) _ _ _ e1
  have h2 := does_setF _ _ _ _ _ e2
  have h3 := after_ran (dev_bit_ne 19 (by decide)) cond_set e3
  cases r with
  | false =>
    obtain ⟨-, rfl⟩ := dev_pure e
    exact .inl (h1.append (h2.append (l := [_]) h3))
  | true => exact .inr (h1.append (h2.append (l := [_]) (h3.append (l := [_]) (does_flush _ _ _ e))))

theorem does_reset : Does hw resetOps (initReset hw) := by
  refine does_bind (l := [_]) (l' := []) (does_setF _ _) fun _ => ?_
  exact does_bind (l := []) (l' := []) (does_sleep _) fun _ => does_sleep _

theorem does_wait : Does hw waitOps (initWait hw) := by
  refine does_bind (l := [_]) (does_wr _ _) fun _ => ?_
  refine does_bind (l := [_, _]) (does_loop1 (f := fun n => .write (EIMC n) (const 0xFFFFFFFF#32)) 2 1 fun n => does_wr _ _) fun _ => ?_
  refine does_bind (l := [_]) (does_wrField _ _ _ (s := 5) (by decide)) fun _ => ?_
  intro d u d' h
  obtain ⟨r, d1, e1, f1⟩ := dev_bind h
  obtain ⟨_, d2, e2, f2⟩ := dev_bind f1
  obtain ⟨rfl, rfl⟩ := dev_fatalIf e2
  refine Ran.append (l := [_]) (after_ran (dev_bit_ne 9 (by decide)) cond_cleared e1) ?_
  obtain ⟨r, d3, e3, f3⟩ := dev_bind f2
  obtain ⟨_, d4, e4, f4⟩ := dev_bind f3
  obtain ⟨rfl, rfl⟩ := dev_fatalIf e4
  obtain ⟨v, e5, -⟩ := cleared_ran (dev_bit_ne 8 (by decide)) e3
  refine .read e5 ?_
  obtain ⟨r, d5, e6, f5⟩ := dev_bind f4
  obtain ⟨_, d6, e7, f6⟩ := dev_bind f5
  obtain ⟨rfl, rfl⟩ := dev_fatalIf e7
  obtain ⟨v, e8, e9⟩ := cleared_ran (dev_bits_ne 19 24 (by decide) (by decide)) (dev_negated e6)
  refine .expect e8 e9 ?_
  exact does_after (dev_bit_ne 3 (by decide)) cond_cleared _ _ _ f6

theorem does_filters : Does hw filterOps (initFilters hw) := by
  unfold filterOps initFilters
  simp only [List.append_assoc]
  refine does_bind (does_loop0 _ fun n => does_wr _ _) fun _ => ?_
  refine does_bind (does_loop0 _ fun n => does_wr _ _) fun _ => ?_
  refine does_bind (does_wr _ _) fun _ => ?_
  refine does_bind (does_loop1 _ _ fun n => does_wr _ _) fun _ => ?_
  refine does_bind (does_loop0 _ fun n => does_wr _ _) fun _ => ?_
  refine does_bind (does_loop0 _ fun n => does_wr _ _) fun _ => ?_
  exact does_loop0 _ fun n => does_clearF _ _ (s := 31) (by decide)

theorem does_receive : Does hw receiveOps (initReceive hw) := by
  unfold receiveOps initReceive
  simp only [List.append_assoc, List.cons_append, List.nil_append]
  refine does_bind (l := [_]) (does_setF _ _) fun _ => ?_
  refine does_bind (l := [_]) (does_clearF _ _ (s := 17) (by decide)) fun _ => ?_
  refine does_bind (l := [_]) (does_setF _ _) fun _ => ?_
  refine does_bind (l := [_]) (does_setF _ _) fun _ => ?_
  refine does_bind (does_loop1 _ _ fun n => does_wr _ _) fun _ => ?_
  refine does_bind (l := [_]) (does_setF _ _) fun _ => ?_
  refine does_bind (l := [_]) (does_wrField _ _ _ (s := 3) (by decide)) fun _ => ?_
  rw [List.range_eq_range']
  exact does_loop _ _ fun n _ _ => does_bind (l := [_]) (l' := [_]) (does_wr _ _) fun _ => does_wr _ _

theorem does_transmit : Does hw transmitOps (initTransmit hw) := by
  unfold transmitOps initTransmit
  simp only [List.cons_append, List.nil_append]
  refine does_bind (l := [_]) (does_setF _ _) fun _ => ?_
  refine does_bind (does_loop1 _ _ fun n => does_wr _ _) fun _ => ?_
  refine does_bind (l := [_]) (does_wrField _ _ _ (s := 0) (by decide)) fun _ => ?_
  refine does_bind (l := [_]) (does_wrField _ _ _ (s := 0) (by decide)) fun _ => ?_
  exact does_clearF _ _ (s := 6) (by decide)

end Does

end Card

/-- C67: the set-up of a device that stops when told to makes the accesses `initOps`, in this order, besides sleeping and polling.
One that does not stop is also flushed, and reset twice. -/
theorem C67_init (hw : Verif.IxgbeDevice.Hw) (d d' : Verif.IxgbeDevice.Dev) (addr : BitVec 64) (h : Verif.IxgbeDevice.init hw d = some (addr, d')) :
    Card.Ran hw initOps d d' ∨
    Card.Ran hw (pciOps ++ (List.range 128).flatMap disableOps ++ Card.stuckOps ++ resetOps ++ waitOps ++ filterOps ++ receiveOps ++ transmitOps) d d' := by
  unfold Verif.IxgbeDevice.init at h
  obtain ⟨a, d1, e1, e⟩ := dev_bind h
  obtain ⟨_, d2, e2, e⟩ := dev_bind e
  obtain ⟨_, d3, e3, e⟩ := dev_bind e
  obtain ⟨_, d4, e4, e⟩ := dev_bind e
  obtain ⟨_, d5, e5, e⟩ := dev_bind e
  obtain ⟨_, d6, e6, e⟩ := dev_bind e
  obtain ⟨_, d7, e7, e⟩ := dev_bind e
  obtain ⟨-, rfl⟩ := dev_pure e
  have rest := ((((Card.does_reset _ _ _ e3).append (Card.does_wait _ _ _ e4)).append (Card.does_filters _ _ _ e5)).append (Card.does_receive _ _ _ e6)).append
    (Card.does_transmit _ _ _ e7)
  rcases Card.initStop_ran e2 with h | h
  · left
    have := (Card.does_initPci (hw := hw) _ _ _ e1).append (h.append rest)
    simpa only [initOps, List.append_assoc] using this
  · right
    have := (Card.does_initPci (hw := hw) _ _ _ e1).append (h.append rest)
    simpa only [List.append_assoc] using this

/-- C67: of a device that does not receive yet, `tn_device_set_promiscuous` makes the accesses `promiscuousOps`; that it does not
receive is what the driver reads. -/
theorem C67_promiscuous (hw : Verif.IxgbeDevice.Hw) (d d' : Verif.IxgbeDevice.Dev) (h : Verif.IxgbeDevice.setPromiscuous hw d = some ((), d'))
    (hr : ∀ v d1, Verif.IxgbeDevice.rd hw 0x03000 d = some (v, d1) → v.getLsbD 0 = false) : Card.Ran hw promiscuousOps d d' := by
  unfold Verif.IxgbeDevice.setPromiscuous at h
  obtain ⟨b, d1, e1, e⟩ := dev_bind h
  obtain ⟨v, e2, e3⟩ := Card.cleared_ran (dev_bit_ne 0 (by decide)) (dev_negated e1)
  have hb : b = false := by
    have h0 := (dev_and_bit v 0 (by decide)).2 (hr v d1 e2)
    rw [h0] at e3
    cases b
    · rfl
    · cases e3
  subst hb
  refine .expect e2 e3 ?_
  obtain ⟨_, d2, e4, f1⟩ := dev_bind e
  obtain ⟨-, rfl⟩ := dev_pure e4
  obtain ⟨_, d3, e5, f2⟩ := dev_bind f1
  obtain ⟨_, d4, e6, f3⟩ := dev_bind f2
  obtain ⟨-, rfl⟩ := dev_pure f3
  exact (Card.does_setF _ _ _ _ _ e5).append (l := [_]) (Card.does_setF _ _ _ _ _ e6)

/-- C67: `tn_device_get_mac`. -/
theorem C67_mac (hw : Verif.IxgbeDevice.Hw) (d d' : Verif.IxgbeDevice.Dev) (mac : BitVec 64) (h : Verif.IxgbeDevice.getMac hw d = some (mac, d')) :
    Card.Ran hw macOps d d' := by
  have : Card.Does hw macOps (Verif.IxgbeDevice.getMac hw) :=
    Card.does_bind (l := [_]) (l' := [_]) (Card.does_rd _) fun _ => Card.does_bind (l := [_]) (l' := []) (Card.does_rd _) fun _ => Card.does_pure _
  exact this _ _ _ h

namespace Card
open Verif.IxgbeRegs Verif.IxgbeSetup

/-- What the accesses do to registers that read back what was written; none if one is not as expected. -/
def apply (ρ : Env) : List Op → Regs → Option Regs
  | [], r => some r
  | .read _ :: l, r => apply ρ l r
  | .expect a f b :: l, r => if (r a &&& f == 0#32) = b then apply ρ l r else none
  | .write a v :: l, r => apply ρ l (regWrite r a (BitVec.ofNat 32 (v.den ρ)))
  | .modify a m n :: l, r => apply ρ l (regWrite r a ((r a &&& ~~~m) ||| n))
  | .pciRead _ :: l, r => apply ρ l r
  | .pciModify _ _ _ :: l, r => apply ρ l r

theorem apply_append (ρ : Env) : ∀ (l l' : List Op) (r : Regs), apply ρ (l ++ l') r = (apply ρ l r).bind (apply ρ l')
  | [], _, _ => rfl
  | .read _ :: l, l', r => apply_append ρ l l' r
  | .expect a f b :: l, l', r => by
    simp only [List.cons_append, apply]
    split
    · exact apply_append ρ l l' r
    · rfl
  | .write a v :: l, l', r => apply_append ρ l l' _
  | .modify a m n :: l, l', r => apply_append ρ l l' _
  | .pciRead _ :: l, l', r => apply_append ρ l l' r
  | .pciModify _ _ _ :: l, l', r => apply_append ρ l l' r

theorem apply_set (ρ : Env) (a : Nat) (f : BitVec 32) (l : List Op) (r : Regs) : apply ρ (setBits a f :: l) r = apply ρ l (setField r a f) := by
  unfold setBits setField regRead
  rw [apply]
  congr 2
  apply BitVec.eq_of_getLsbD_eq
  intro i hi
  simp only [BitVec.getLsbD_or, BitVec.getLsbD_and, BitVec.getLsbD_not, hi, decide_true, Bool.true_and]
  cases f.getLsbD i <;> simp

theorem apply_field (ρ : Env) (a : Nat) (f v : BitVec 32) {s : Nat} (hs : findFirstSet f = some s) (l : List Op) (r r' : Regs) (h : writeField r a f v = some r') :
    apply ρ (.modify a f (v <<< s) :: l) r = apply ρ l r' := by
  unfold writeField at h
  rw [hs] at h
  simp only [Option.bind_eq_bind, Option.bind_some, Option.some.injEq] at h
  rw [apply, ← h]
  rfl

theorem apply_clear (ρ : Env) (a : Nat) (f : BitVec 32) {s : Nat} (hs : findFirstSet f = some s) (l : List Op) (r r' : Regs) (h : clearField r a f = some r') :
    apply ρ (clearBits a f :: l) r = apply ρ l r' := by
  have := apply_field ρ a f 0#32 hs l r r' h
  rwa [BitVec.zero_shiftLeft] at this

theorem apply_expect (ρ : Env) (a n : Nat) (hn : n < 32) (b : Bool) (l : List Op) (r : Regs) (h : isFieldCleared r a (bit n) = some b) :
    apply ρ (.expect a (bit n) b :: l) r = apply ρ l r := by
  rw [apply, if_pos]
  rw [cleared_bit r a n hn] at h
  have h := Option.some.inj h
  rw [Bool.eq_iff_iff, beq_iff_eq, dev_and_bit _ _ hn, ← h]
  simp

theorem ofNat_or_one (x : Nat) : BitVec.ofNat 32 (x ||| 1) = BitVec.ofNat 32 x ||| 1#32 := by
  apply BitVec.eq_of_getLsbD_eq
  intro i hi
  rw [BitVec.getLsbD_or, BitVec.getLsbD_ofNat, BitVec.getLsbD_ofNat, BitVec.getLsbD_ofNat, Nat.testBit_or]
  simp [hi]

theorem apply_sym (ρ : Env) (a : Nat) (f : Env → Nat) (l : List Op) (r : Regs) :
    apply ρ (.write a (.sym 32 f) :: l) r = apply ρ l (regWrite r a (BitVec.ofNat 32 (f ρ))) := by
  rw [apply]
  congr 2
  apply BitVec.eq_of_toNat_eq
  simp [Val.den]

theorem apply_const (ρ : Env) (a : Nat) (v : BitVec 32) (l : List Op) (r : Regs) : apply ρ (.write a (const v) :: l) r = apply ρ l (regWrite r a v) := by
  rw [apply]
  congr 2
  apply BitVec.eq_of_toNat_eq
  simp only [const, Val.den, BitVec.toNat_ofNat]
  omega

theorem apply_field0 (ρ : Env) (a : Nat) (f v : BitVec 32) (hs : findFirstSet f = some 0) (l : List Op) (r r' : Regs) (h : writeField r a f v = some r') :
    apply ρ (.modify a f v :: l) r = apply ρ l r' := by
  have := apply_field ρ a f v hs l r r' h
  rwa [BitVec.shiftLeft_zero] at this

theorem outputRegs_apply (ρ : Env) {r r' : Regs} {q ring head : Nat} {te : Bool} (h : outputRegs r q ring head te = some r') (l : List Op) :
    apply ρ ([.write (TDBAH q) (.sym 32 fun _ => ring / 2 ^ 32), .write (TDBAL q) (.sym 32 fun _ => ring), .write (TDLEN q) (const (256#32 * 16#32)),
      .modify (TXDCTL q) (bits 0 6) 60#32, .modify (TXDCTL q) (bits 8 14) (4#32 <<< 8),
      .write (TDWBAH q) (.sym 32 fun _ => head / 2 ^ 32), .write (TDWBAL q) (.sym 32 fun _ => head ||| 1), clearBits (DCATXCTRL q) (bit 11)] ++
      ((if !te then [setBits DMATXCTL (bit 0)] else []) ++ (setBits (TXDCTL q) (bit 25) :: l))) r = apply ρ l r' := by
  unfold outputRegs at h
  simp only [Option.bind_eq_bind, Option.bind_eq_some_iff] at h
  obtain ⟨r1, e1, r2, e2, r3, e3, e4⟩ := h
  simp only [List.cons_append, List.nil_append]
  rw [apply_sym, apply_sym, apply_const, apply_field0 ρ _ _ _ (by decide) _ _ _ e1, apply_field ρ _ _ _ (s := 8) (by decide) _ _ _ e2,
    apply_sym, apply_sym, ofNat_or_one, apply_clear ρ _ _ (s := 11) (by decide) _ _ _ e3, ← Option.some.inj e4]
  cases te
  · simp only [Bool.not_false, if_true, List.cons_append, List.nil_append, Bool.false_eq_true, if_false]
    rw [apply_set, apply_set]
  · simp only [Bool.not_true, Bool.false_eq_true, if_false, List.nil_append, if_true]
    rw [apply_set]

theorem addOutput_apply (ρ : Env) {phys : Nat → Nat} {s s' : Sys} {a a' : Agent} {device output q : Nat} (h : addOutput phys s a device output q = some (a', s')) :
    ∃ ring head, head % 16 = 0 ∧ q < 128 ∧
      apply ρ (outputOps (!s.txEnabled device) q (fun _ => ring) (fun _ => head)) (s.regs device) = some (s'.regs device) ∧
      s'.txEnabled = upd s.txEnabled device true ∧ s'.rxEnabled = s.rxEnabled ∧ (∀ m, m ≠ device → s'.regs m = s.regs m) ∧ a'.outputsCount = a.outputsCount := by
  unfold addOutput at h
  split at h
  · cases h
  split at h
  · cases h
  rename_i h1 h2
  simp only [Option.bind_eq_bind, Option.bind_eq_some_iff] at h
  obtain ⟨free, e1, h⟩ := h
  cases free
  · simp at h
  simp only [Bool.not_true, Bool.false_eq_true, if_false, Option.bind_eq_some_iff] at h
  obtain ⟨⟨ring, mem⟩, e2, h⟩ := h
  by_cases h4 : phys (a.transmitHeads + 4 * (output * 16)) % 16 = 0
  swap
  · simp [h4] at h
  simp only [h4, ne_eq, not_true_eq_false, if_false, Option.bind_eq_some_iff] at h
  obtain ⟨r, e3, stuck, e4, h⟩ := h
  split at h
  · cases h
  rename_i h5
  simp only [Option.some.injEq, Prod.mk.injEq] at h
  obtain ⟨rfl, rfl⟩ := h
  have hstuck : stuck = false := by simpa using h5
  subst hstuck
  refine ⟨phys ring, phys (a.transmitHeads + 4 * (output * 16)), h4, by omega, ?_, rfl, rfl, ?_, rfl⟩
  · unfold outputOps
    rw [List.append_assoc, List.cons_append, apply_expect ρ _ 25 (by decide) true _ _ e1]
    refine (outputRegs_apply ρ e3 _).trans ?_
    rw [apply_expect ρ _ 25 (by decide) false _ _ e4, apply]
    simp [upd]
  · intro m hm
    simp [upd, hm]

theorem setInput_apply (ρ : Env) {phys : Nat → Nat} {s s' : Sys} {a a' : Agent} {device : Nat} (h : setInput phys s a device = some (a', s'))
    (hr : s.rxEnabled device = false) : ∃ ring, apply ρ (inputOps fun _ => ring) (s.regs device) = some (s'.regs device) ∧
      s'.txEnabled = s.txEnabled ∧ s'.rxEnabled = upd s.rxEnabled device true ∧ (∀ m, m ≠ device → s'.regs m = s.regs m) := by
  unfold setInput at h
  split at h
  · cases h
  split at h
  · cases h
  simp only [Option.bind_eq_bind, Option.bind_eq_some_iff] at h
  obtain ⟨free, e1, h⟩ := h
  cases free
  · simp at h
  simp only [Bool.not_true, Bool.false_eq_true, if_false, Option.bind_eq_some_iff] at h
  obtain ⟨r1, e2, r2, e3, r3, e4, h⟩ := h
  simp only [Option.some.injEq, Prod.mk.injEq] at h
  obtain ⟨rfl, rfl⟩ := h
  rw [hr, if_neg (by decide)] at e3
  unfold receiveRegs at e2
  simp only [Option.bind_eq_bind, Option.bind_eq_some_iff] at e2
  obtain ⟨r4, e5, stuck, e6, e2⟩ := e2
  split at e2
  · cases e2
  rename_i h4
  have hs : stuck = false := by simpa using h4
  subst hs
  unfold enableReceive at e3
  simp only [Option.bind_eq_bind, Option.bind_eq_some_iff] at e3
  obtain ⟨late, e7, e3⟩ := e3
  split at e3
  · cases e3
  rename_i h5
  have hl : late = false := by simpa using h5
  subst hl
  rw [Option.bind_eq_some_iff] at e3
  obtain ⟨r5, e8, e9⟩ := e3
  refine ⟨phys (a.rings 0), ?_, rfl, rfl, fun m hm => by simp [upd, hm]⟩
  unfold inputOps
  rw [apply_expect ρ _ 25 (by decide) true _ _ e1, apply_sym, apply_sym, apply_const, apply_field0 ρ _ _ _ (by decide) _ _ _ e5, apply_set, apply_set,
    apply_expect ρ _ 25 (by decide) false _ _ e6, apply_const, Option.some.inj e2, apply_set, apply_expect ρ _ 0 (by decide) false _ _ e7, apply_set,
    apply_clear ρ _ _ (s := 1) (by decide) _ _ _ e8, apply_set, Option.some.inj e9, apply_clear ρ _ _ (s := 12) (by decide) _ _ _ e4, apply]
  simp [upd]

/-- The queue of device `n` that agent `i` sends to, ixgbe.c:1160-1165. -/
def queueOf (devices i n : Nat) : Nat := i * (devices - 1) + if n > i then n - 1 else n

theorem outputsLoop_apply (ρ : Env) {phys : Nat → Nat} {input : Nat} : ∀ (k n : Nat) {s s' : Sys} {a a' : Agent}, outputsLoop phys input k n s a = some (a', s') →
    s'.rxEnabled = s.rxEnabled ∧ a'.outputsCount = a.outputsCount ∧ ∀ m,
      ((n ≤ m ∧ m < n + k ∧ m ≠ input) → ∃ ring head, head % 16 = 0 ∧ input * a.outputsCount + (if m > input then m - 1 else m) < 128 ∧
        apply ρ (outputOps (!s.txEnabled m) (input * a.outputsCount + if m > input then m - 1 else m) (fun _ => ring) (fun _ => head)) (s.regs m) = some (s'.regs m) ∧
        s'.txEnabled m = true) ∧
      (¬ (n ≤ m ∧ m < n + k ∧ m ≠ input) → s'.regs m = s.regs m ∧ s'.txEnabled m = s.txEnabled m)
  | 0, n, s, s', a, a', h => by
    simp only [outputsLoop, Option.some.injEq, Prod.mk.injEq] at h
    obtain ⟨rfl, rfl⟩ := h
    exact ⟨rfl, rfl, fun m => ⟨fun h => by omega, fun _ => ⟨rfl, rfl⟩⟩⟩
  | k + 1, n, s, s', a, a', h => by
    unfold outputsLoop at h
    split at h
    · rename_i hn
      simp only [Option.bind_eq_bind, Option.bind_eq_some_iff] at h
      obtain ⟨⟨a1, s1⟩, e1, e2⟩ := h
      obtain ⟨ring, head, h1, h2, h3, h4, h5, h6, h7⟩ := addOutput_apply ρ e1
      obtain ⟨i1, i2, i3⟩ := outputsLoop_apply ρ k (n + 1) e2
      refine ⟨i1.trans h5, i2.trans h7, fun m => ⟨fun hm => ?_, fun hm => ?_⟩⟩
      · by_cases e : m = n
        · subst e
          obtain ⟨j1, j2⟩ := (i3 m).2 (by omega)
          refine ⟨ring, head, h1, h2, by rw [j1]; exact h3, by rw [j2, h4]; simp [upd]⟩
        · obtain ⟨ring', head', j1, j2, j3, j4⟩ := (i3 m).1 (by omega)
          rw [h6 m e, h4, show upd s.txEnabled n true m = s.txEnabled m by simp [upd, e]] at j3
          rw [h7] at j2 j3
          exact ⟨ring', head', j1, j2, j3, j4⟩
      · obtain ⟨j1, j2⟩ := (i3 m).2 (by omega)
        have e : m ≠ n := by rintro rfl; exact hm ⟨Nat.le_refl _, by omega, hn⟩
        exact ⟨by rw [j1, h6 m e], by rw [j2, h4]; simp [upd, e]⟩
    · rename_i hn
      obtain ⟨i1, i2, i3⟩ := outputsLoop_apply ρ k (n + 1) h
      refine ⟨i1, i2, fun m => ⟨fun hm => (i3 m).1 ⟨?_, by omega, hm.2.2⟩, fun hm => (i3 m).2 fun hc => hm ⟨by omega, by omega, hc.2.2⟩⟩⟩
      have : m ≠ n := by rintro rfl; exact hn hm.2.2
      omega

theorem agentInit_apply (ρ : Env) {phys : Nat → Nat} {s s' : Sys} {a : Agent} {input devices : Nat} (h : agentInit phys s input devices = some (a, s'))
    (hr : s.rxEnabled input = false) : s'.rxEnabled = upd s.rxEnabled input true ∧ input < devices ∧
      (∃ ring, apply ρ (inputOps fun _ => ring) (s.regs input) = some (s'.regs input)) ∧ s'.txEnabled input = s.txEnabled input ∧
      ∀ m, m < devices → m ≠ input → s'.txEnabled m = true ∧ ∃ ring head, head % 16 = 0 ∧ queueOf devices input m < 128 ∧
        apply ρ (outputOps (!s.txEnabled m) (queueOf devices input m) (fun _ => ring) (fun _ => head)) (s.regs m) = some (s'.regs m) := by
  unfold agentInit at h
  split at h
  · cases h
  split at h
  · cases h
  split at h
  · cases h
  rename_i h1 h2 h3
  simp only [Option.bind_eq_bind, Option.bind_eq_some_iff] at h
  obtain ⟨⟨b1, m1⟩, -, ⟨b2, m2⟩, -, ⟨b3, m3⟩, -, ⟨b4, m4⟩, -, ⟨b5, m5⟩, -, ⟨a1, s1⟩, e1, e2⟩ := h
  obtain ⟨i1, i2, i3⟩ := outputsLoop_apply ρ devices 0 e1
  simp only at i1 i2 i3 e2
  obtain ⟨ring, j1, j2, j3, j4⟩ := setInput_apply ρ e2 (by rw [i1]; exact hr)
  obtain ⟨k1, k2⟩ := (i3 input).2 (by omega)
  refine ⟨by rw [j3, i1], by omega, ⟨ring, by rw [← k1]; exact j1⟩, by rw [j2, k2], fun m hm hne => ?_⟩
  obtain ⟨ring', head', q1, q2, q3, q4⟩ := (i3 m).1 (by omega)
  exact ⟨by rw [j2, q4], ring', head', q1, q2, by rw [j4 m hne]; exact q3⟩

/-- What agent `i` does with device `n`. -/
def useOf (devices n : Nat) (ring head : Nat → Nat) (i : Nat) : Use :=
  if i = n then .input fun _ => ring i else .output (queueOf devices i n) (fun _ => ring i) fun _ => head i

theorem useOps_congr {devices m : Nat} {ring head ring' head' : Nat → Nat} : ∀ (k n : Nat), (∀ i, n ≤ i → ring i = ring' i ∧ head i = head' i) →
    (List.range' n k).map (useOf devices m ring head) = (List.range' n k).map (useOf devices m ring' head') := by
  intro k n h
  apply List.map_congr_left
  intro i hi
  rw [List.mem_range'_1] at hi
  unfold useOf
  rw [(h i hi.1).1, (h i hi.1).2]

theorem agentsLoop_apply (ρ : Env) {phys : Nat → Nat} {devices : Nat} : ∀ (k n : Nat) {s s' : Sys} {as : List Agent}, agentsLoop phys devices k n s = some (as, s') →
    (∀ i, n ≤ i → s.rxEnabled i = false) → ∀ m, m < devices → ∃ ring head : Nat → Nat, (∀ i, head i % 16 = 0) ∧ (∀ i, n ≤ i → i < n + k → i < devices ∧ (i ≠ m → queueOf devices i m < 128)) ∧
      apply ρ (useOps (s.txEnabled m) ((List.range' n k).map (useOf devices m ring head))) (s.regs m) = some (s'.regs m)
  | 0, n, s, s', as, h, _, m, _ => by
    simp only [agentsLoop, Option.some.injEq, Prod.mk.injEq] at h
    obtain ⟨-, rfl⟩ := h
    exact ⟨fun _ => 0, fun _ => 0, fun _ => rfl, fun i h1 h2 => by omega, rfl⟩
  | k + 1, n, s, s', as, h, hr, m, hm => by
    unfold agentsLoop at h
    simp only [Option.bind_eq_bind, Option.bind_eq_some_iff] at h
    obtain ⟨⟨a, s1⟩, e1, ⟨as', s2⟩, e2, h⟩ := h
    simp only [Option.some.injEq, Prod.mk.injEq] at h
    obtain ⟨-, rfl⟩ := h
    obtain ⟨i1, i2, ⟨rin, i3⟩, i4, i5⟩ := agentInit_apply ρ e1 (hr n (Nat.le_refl _))
    obtain ⟨ring, head, j1, j2, j3⟩ := agentsLoop_apply ρ k (n + 1) e2 (fun i hi => by rw [i1]; simp [upd, show i ≠ n by omega, hr i (by omega)]) m hm
    by_cases e : m = n
    · subst e
      refine ⟨fun i => if i = m then rin else ring i, head, j1, fun i h1 h2 => ?_, ?_⟩
      · by_cases e : i = m
        · subst e; exact ⟨i2, fun h => absurd rfl h⟩
        · exact j2 i (by omega) (by omega)
      · rw [List.range'_succ, List.map_cons, useOps_congr (ring' := ring) (head' := head) k (m + 1) (fun i hi => ⟨by rw [if_neg (by omega)], rfl⟩)]
        rw [show useOf devices m (fun i => if i = m then rin else ring i) head m = .input fun _ => rin by simp [useOf]]
        rw [useOps, apply_append, i3, Option.bind_some, ← i4]
        exact j3
    · obtain ⟨k1, rin', hd, k2, k3, k4⟩ := i5 m hm e
      refine ⟨fun i => if i = n then rin' else ring i, fun i => if i = n then hd else head i, fun i => ?_, fun i h1 h2 => ?_, ?_⟩
      · change (if i = n then hd else head i) % 16 = 0
        split
        · exact k2
        · exact j1 i
      · by_cases e' : i = n
        · subst e'; exact ⟨i2, fun _ => k3⟩
        · exact j2 i (by omega) (by omega)
      · rw [List.range'_succ, List.map_cons, useOps_congr (ring' := ring) (head' := head) k (n + 1) (fun i hi => ⟨by rw [if_neg (by omega)], by rw [if_neg (by omega)]⟩)]
        rw [show useOf devices m (fun i => if i = n then rin' else ring i) (fun i => if i = n then hd else head i) n =
          .output (queueOf devices n m) (fun _ => rin') fun _ => hd by simp [useOf, show n ≠ m from fun h => e h.symm]]
        rw [useOps, apply_append, k4, Option.bind_some]
        rw [k1] at j3
        exact j3

theorem queueOf_inj {devices m i j : Nat} (hm : m < devices) (hid : i < devices) (hjd : j < devices) (h : queueOf devices i m = queueOf devices j m) : i = j := by
  unfold queueOf at h
  obtain ⟨e, rfl⟩ : ∃ e, devices = e + 1 := ⟨devices - 1, by omega⟩
  simp only [Nat.add_sub_cancel] at h
  rcases Nat.lt_trichotomy i j with hlt | heq | hgt
  · exfalso
    have : i * e + e ≤ j * e := by rw [← Nat.succ_mul]; exact Nat.mul_le_mul_right e hlt
    split at h <;> split at h <;> omega
  · exact heq
  · exfalso
    have : j * e + e ≤ i * e := by rw [← Nat.succ_mul]; exact Nat.mul_le_mul_right e hgt
    split at h <;> split at h <;> omega

theorem valid_uses {devices m : Nat} {ring head : Nat → Nat} (hm : m < devices) : ∀ (k n : Nat) (outs : List Nat) (receives : Bool),
    (∀ i, n ≤ i → i < n + k → i < devices ∧ (i ≠ m → queueOf devices i m < 128)) → (∀ q ∈ outs, ∃ i, i < n ∧ i < devices ∧ i ≠ m ∧ q = queueOf devices i m) →
    (receives = true → m < n) → Valid outs receives ((List.range' n k).map (useOf devices m ring head))
  | 0, _, _, _, _, _, _ => trivial
  | k + 1, n, outs, receives, h1, h2, h3 => by
    rw [List.range'_succ, List.map_cons]
    obtain ⟨hn, hq⟩ := h1 n (Nat.le_refl _) (by omega)
    by_cases e : n = m
    · rw [show useOf devices m ring head n = .input fun _ => ring n by simp [useOf, e]]
      refine ⟨?_, valid_uses hm k (n + 1) outs true (fun i _ _ => h1 i (by omega) (by omega)) (fun q hq => ?_) fun _ => by omega⟩
      · cases receives
        · rfl
        · have := h3 rfl; omega
      · obtain ⟨i, i1, i2⟩ := h2 q hq
        exact ⟨i, by omega, i2⟩
    · rw [show useOf devices m ring head n = .output (queueOf devices n m) (fun _ => ring n) fun _ => head n by simp [useOf, e]]
      refine ⟨hq e, fun hc => ?_, valid_uses hm k (n + 1) _ receives (fun i _ _ => h1 i (by omega) (by omega)) (fun q hq => ?_) fun h => by have := h3 h; omega⟩
      · obtain ⟨i, i1, i2, i3, i4⟩ := h2 _ hc
        have := queueOf_inj hm hn i2 i4
        omega
      · rcases List.mem_cons.1 hq with rfl | hq
        · exact ⟨n, by omega, hn, e, rfl⟩
        · obtain ⟨i, i1, i2⟩ := h2 q hq
          exact ⟨i, by omega, i2⟩

end Card

/-- C67: when the driver sets up as many agents as devices, what it does to the registers of a device `n` is a list of uses that
`C67_accepted` is about: agent `n` receives from it, each other agent `i` sends to it with queue `i (devices - 1) + n`, or one less
if `n > i`, and the queues are distinct and below 128. The `ring i` and `head i` are physical addresses of memory, and each
`head i` is a multiple of 16. What the tool accepts for every such list is thus what is done here. -/
theorem C67_setup (phys : Nat → Nat) (devices : Nat) (s s' : Verif.IxgbeSetup.Sys) (as : List Verif.IxgbeSetup.Agent)
    (h : Verif.IxgbeSetup.setup phys s devices = some (as, s')) (hr : ∀ i, s.rxEnabled i = false) (n : Nat) (hn : n < devices) (ρ : Env) :
    ∃ ring head : Nat → Nat, (∀ i, head i % 16 = 0) ∧
      let us := (List.range devices).map fun i =>
        if i = n then Use.input fun _ => ring i else .output (i * (devices - 1) + if n > i then n - 1 else n) (fun _ => ring i) fun _ => head i
      Card.Valid [] false us ∧ Card.apply ρ (useOps (s.txEnabled n) us) (s.regs n) = some (s'.regs n) := by
  obtain ⟨ring, head, h1, h2, h3⟩ := Card.agentsLoop_apply ρ devices 0 h (fun i _ => hr i) n hn
  rw [← List.range_eq_range'] at h3
  refine ⟨ring, head, h1, ?_, h3⟩
  have := Card.valid_uses (ring := ring) (head := head) hn devices 0 [] false h2 (by simp) (by simp)
  rwa [← List.range_eq_range'] at this

namespace CardDriverExample
open Verif.IxgbeDevice

example : ∃ as s', Verif.IxgbeSetup.setup IxgbeSetupExample.phys (IxgbeSetupExample.after 0x200000) 3 = some (as, s') ∧
    ∀ i, (IxgbeSetupExample.after 0x200000).rxEnabled i = false := by
  obtain ⟨as, s', h⟩ := IxgbeSetupExample.works 3 (by decide) (by decide)
  exact ⟨as, s', h, fun _ => rfl⟩

example : ∃ addr d', init (DeviceExample.hw true) (DeviceExample.dev 0x20#32) = some (addr, d') := DeviceExample.initialized

example : ∃ d', setPromiscuous (DeviceExample.hw true) (DeviceExample.dev 0x20#32) = some ((), d') ∧
    ∀ v d1, rd (DeviceExample.hw true) 0x03000 (DeviceExample.dev 0x20#32) = some (v, d1) → v.getLsbD 0 = false := by
  obtain ⟨d', h, -⟩ := C61_promiscuous (DeviceExample.hw true) (DeviceExample.quiet true) (DeviceExample.dev 0x20#32)
  refine ⟨d', h, fun v d1 h => ?_⟩
  have h : some (0#32, _) = some (v, d1) := h
  rw [Option.some.injEq, Prod.mk.injEq] at h
  rw [← h.1]
  rfl

example : ∃ mac d', getMac (DeviceExample.hw true) (DeviceExample.dev 0x20#32) = some (mac, d') := by
  obtain ⟨mac, d', h, -⟩ := C61_mac (DeviceExample.hw true) (DeviceExample.quiet true) (DeviceExample.dev 0x20#32)
  exact ⟨mac, d', h⟩

/-- The queues of the second of three devices. -/
example : (List.range 3).map (Card.useOf 3 1 (fun _ => 0) fun _ => 0) =
    [Use.output 0 (fun _ => 0) fun _ => 0, .input fun _ => 0, .output 5 (fun _ => 0) fun _ => 0] := rfl

end CardDriverExample

end Verif.Props
