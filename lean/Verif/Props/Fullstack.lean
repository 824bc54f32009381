/-
C66: the verification of whole programs explores all packets that a driver's initialization leads to. False of the code: it
raises for every program.
-/
import Verif.Tool.Fullstack
import Mathlib.Logic.Relation

set_option autoImplicit false

namespace Verif.Props
open Verif.Fullstack

/-- One step of the code that does not raise, end or hand over. Accesses to the configuration of a device need enumeration first, and an
address that is one device's; they make the device's model if there is none. Writes need the model, and that the checks accept them. -/
inductive FsStep (create : Nat → Except Err Dev) : State × Code → State × Code → Prop
  | enumerate (s : State) (n : Code) : FsStep create (s, .enumerate n) ({ s with enumerated := true }, n)
  | known (s : State) (i : Nat) (n : Code) (he : s.enumerated = true) (h : ∃ d ∈ s.devices, d.index = i) :
      FsStep create (s, .pci (some i) true n) (s, n)
  | made (s : State) (i : Nat) (d : Dev) (n : Code) (he : s.enumerated = true) (h : ∀ d ∈ s.devices, d.index ≠ i) (hc : create i = .ok d) :
      FsStep create (s, .pci (some i) true n) ({ s with devices := s.devices ++ [d] }, n)
  | write (s : State) (dev : Nat) (reg : String) (i : Nat) (n : Code) (h : ∃ d ∈ s.devices, d.index = dev) :
      FsStep create (s, .write dev reg i true n)
        ({ s with devices := s.devices.map fun d => if d.index = dev then { d with regs := (reg, i) :: d.regs } else d }, n)
  | other (s : State) (n : Code) : FsStep create (s, .other n) (s, n)
  | left (s : State) (l r : Code) : FsStep create (s, .branch l r) (s, l)
  | right (s : State) (l r : Code) : FsStep create (s, .branch l r) (s, r)

/-- What some path of the code gets to. -/
abbrev FsReach (create : Nat → Except Err Dev) : State × Code → State × Code → Prop :=
  Relation.ReflTransGen (FsStep create)

/-- The state in which `_start` is executed. -/
def fsInit : State := { enumerated := false, devices := [] }

private theorem fsReachSteps {create : Nat → Except Err Dev} {a b c : State × Code} (h1 : ∀ x, FsStep create a x → x = b)
    (h : FsReach create a c) : c = a ∨ FsReach create b c := by
  rcases Relation.ReflTransGen.cases_head h with rfl | ⟨x, hx, hr⟩
  · exact .inl rfl
  · rw [h1 x hx] at hr; exact .inr hr

private theorem fsReachNone {create : Nat → Except Err Dev} {a c : State × Code} (h1 : ∀ x, ¬ FsStep create a x)
    (h : FsReach create a c) : c = a := by
  rcases Relation.ReflTransGen.cases_head h with rfl | ⟨x, hx, -⟩
  · rfl
  · exact absurd hx (h1 x)

private theorem fsPci {create : Nat → Except Err Dev} {s s' : State} {dev : Option Nat} {ok : Bool} (n : Code)
    (h : pciAccess create s dev ok = .ok s') :
    FsStep create (s, .pci dev ok n) (s', n) ∧ ∀ x, FsStep create (s, .pci dev ok n) x → x = (s', n) := by
  unfold pciAccess at h
  split at h
  · rename_i he
    cases dev with
    | none => cases h
    | some i =>
      simp only at h
      by_cases hd : s.devices.any (fun d => d.index == i) = true
      · have hd' : ∃ d ∈ s.devices, d.index = i := by simpa using hd
        simp only [getOrCreate, hd, if_true] at h
        change (if ok = true then Except.ok s else Except.error Err.refused) = _ at h
        cases ok
        · cases h
        · cases h
          refine ⟨.known s i n he hd', fun x hx => ?_⟩
          cases hx with
          | known => rfl
          | made _ _ d _ _ hn _ =>
            obtain ⟨d', hm, e⟩ := hd'
            exact absurd e (hn d' hm)
      · have hd' : ∀ d ∈ s.devices, d.index ≠ i := by simpa using hd
        simp only [getOrCreate, if_neg hd] at h
        cases hc : create i with
        | error e => rw [hc] at h; cases h
        | ok d =>
          rw [hc] at h
          change (if ok = true then Except.ok { s with devices := s.devices ++ [d] } else Except.error Err.refused) = _ at h
          cases ok
          · cases h
          · cases h
            refine ⟨.made s i d n he hd' hc, fun x hx => ?_⟩
            cases hx with
            | known _ _ _ _ hk =>
              obtain ⟨d', hm, e⟩ := hk
              exact absurd e (hd' d' hm)
            | made _ _ d2 _ _ _ hc2 =>
              rw [hc] at hc2
              cases hc2
              rfl
  · cases h

private theorem fsWrite {create : Nat → Except Err Dev} {s s' : State} {dev : Nat} {reg : String} {i : Nat} {ok : Bool} (n : Code)
    (h : regWrite s dev reg i ok = .ok s') :
    FsStep create (s, .write dev reg i ok n) (s', n) ∧ ∀ x, FsStep create (s, .write dev reg i ok n) x → x = (s', n) := by
  unfold regWrite at h
  split at h
  · rename_i hd
    cases ok
    · cases h
    · cases h
      refine ⟨.write s dev reg i n (by simpa using hd), fun x hx => ?_⟩
      cases hx
      rfl
  · cases h

/-- What it means that running code from a state added `inited` and `ended`. -/
private structure FsRan (create : Nat → Except Err Dev) (handling : Bool) (c : Code) (s : State) (w w' : World) : Prop where
  engine : w'.engineTrapped = none
  executor : w'.executorTrapped = w.executorTrapped
  halt : ∀ s', ¬ FsReach create (s, c) (s', .halt)
  stuck : ∀ y, FsReach create (s, c) y →
    y.2 = .ret ∨ (handling = false ∧ ∃ n f, y.2 = .forever (some n) f) ∨ ∃ z, FsStep create y z
  hand : handling = true → w'.inited = w.inited
  inited : ∃ l, w'.inited = w.inited ++ l ∧ ∀ x, x ∈ l ↔
    ∃ n, FsReach create (s, c) (x.state, .forever (some n) x.func) ∧ x.index < n
  ended : ∃ l, w'.ended = w.ended ++ l ∧ ∀ s', s' ∈ l ↔ FsReach create (s, c) (s', .ret)

private theorem FsRan.one {create : Nat → Except Err Dev} {handling : Bool} {c c' : Code} {s s' : State} {w w' : World}
    (h : FsRan create handling c' s' w w') (st : FsStep create (s, c) (s', c'))
    (un : ∀ x, FsStep create (s, c) x → x = (s', c')) (hc : c ≠ .halt) (hf : ∀ n f, c ≠ .forever n f) (hr : c ≠ .ret) :
    FsRan create handling c s w w' := by
  have key : ∀ y, y.2 ≠ c → (FsReach create (s, c) y ↔ FsReach create (s', c') y) := by
    intro y hy
    constructor
    · intro hh
      rcases fsReachSteps un hh with e | e
      · exact absurd (by rw [e]) hy
      · exact e
    · exact Relation.ReflTransGen.head st
  refine ⟨h.engine, h.executor, fun x hx => h.halt x ((key _ (Ne.symm hc)).1 hx), fun y hy => ?_, h.hand, ?_, ?_⟩
  · rcases fsReachSteps un hy with e | e
    · rw [e]
      exact .inr (.inr ⟨_, st⟩)
    · exact h.stuck y e
  · obtain ⟨l, e, hl⟩ := h.inited
    refine ⟨l, e, fun x => (hl x).trans ?_⟩
    exact exists_congr fun n => and_congr_left fun _ => (key _ (Ne.symm (hf _ _))).symm
  · obtain ⟨l, e, hl⟩ := h.ended
    exact ⟨l, e, fun x => (hl x).trans (key _ (Ne.symm hr)).symm⟩

private theorem fsRun (create : Nat → Except Err Dev) (handling : Bool) (c : Code) (s : State) (w w' : World)
    (hw : w.engineTrapped = none) (h : runCode create handling c s w = .ok w') : FsRan create handling c s w w' := by
  induction c generalizing s w w' with
  | enumerate n ih =>
    refine FsRan.one (ih _ w w' hw h) (.enumerate s n) ?_ (by simp) (by simp) (by simp)
    intro x hx; cases hx; rfl
  | pci dev ok n ih =>
    rw [runCode] at h
    cases hp : pciAccess create s dev ok with
    | error e => rw [hp] at h; cases h
    | ok s' =>
      rw [hp] at h
      exact FsRan.one (ih s' w w' hw h) (fsPci n hp).1 (fsPci n hp).2 (by simp) (by simp) (by simp)
  | write dev reg i ok n ih =>
    rw [runCode] at h
    cases hp : regWrite s dev reg i ok with
    | error e => rw [hp] at h; cases h
    | ok s' =>
      rw [hp] at h
      exact FsRan.one (ih s' w w' hw h) (fsWrite n hp).1 (fsWrite n hp).2 (by simp) (by simp) (by simp)
  | other n ih =>
    refine FsRan.one (ih s w w' hw h) (.other s n) ?_ (by simp) (by simp) (by simp)
    intro x hx; cases hx; rfl
  | branch l r ihl ihr =>
    rw [runCode] at h
    cases hl : runCode create handling l s w with
    | error e => rw [hl] at h; cases h
    | ok w1 =>
      rw [hl] at h
      have a := ihl s w w1 hw hl
      have b := ihr s w1 w' a.engine h
      have key : ∀ y, y.2 ≠ .branch l r →
          (FsReach create (s, .branch l r) y ↔ FsReach create (s, l) y ∨ FsReach create (s, r) y) := by
        intro y hy
        constructor
        · intro hh
          rcases Relation.ReflTransGen.cases_head hh with rfl | ⟨x, hx, hr⟩
          · exact absurd rfl hy
          · cases hx
            · exact .inl hr
            · exact .inr hr
        · rintro (hh | hh)
          · exact Relation.ReflTransGen.head (.left s l r) hh
          · exact Relation.ReflTransGen.head (.right s l r) hh
      refine ⟨b.engine, b.executor.trans a.executor, ?_, ?_, fun hd => (b.hand hd).trans (a.hand hd), ?_, ?_⟩
      · intro x hx
        rcases (key _ (by simp)).1 hx with hh | hh
        · exact a.halt x hh
        · exact b.halt x hh
      · intro y hy
        by_cases hyb : y = (s, .branch l r)
        · rw [hyb]
          exact .inr (.inr ⟨_, .left s l r⟩)
        · rcases Relation.ReflTransGen.cases_head hy with e | ⟨x, hx, hr⟩
          · exact absurd e.symm hyb
          · cases hx
            · exact a.stuck y hr
            · exact b.stuck y hr
      · obtain ⟨l1, e1, h1⟩ := a.inited
        obtain ⟨l2, e2, h2⟩ := b.inited
        refine ⟨l1 ++ l2, by rw [e2, e1, List.append_assoc], fun x => ?_⟩
        rw [List.mem_append, h1, h2]
        constructor
        · rintro (⟨n, hh, hn⟩ | ⟨n, hh, hn⟩)
          · exact ⟨n, (key _ (by simp)).2 (.inl hh), hn⟩
          · exact ⟨n, (key _ (by simp)).2 (.inr hh), hn⟩
        · rintro ⟨n, hh, hn⟩
          rcases (key _ (by simp)).1 hh with hh | hh
          · exact .inl ⟨n, hh, hn⟩
          · exact .inr ⟨n, hh, hn⟩
      · obtain ⟨l1, e1, h1⟩ := a.ended
        obtain ⟨l2, e2, h2⟩ := b.ended
        refine ⟨l1 ++ l2, by rw [e2, e1, List.append_assoc], fun x => ?_⟩
        rw [List.mem_append, h1, h2, key _ (by simp)]
  | halt =>
    simp only [runCode, trap, hw] at h
    cases h
  | forever n f ih =>
    rw [runCode] at h
    have nost : ∀ x, ¬ FsStep create (s, .forever n f) x := by intro x hx; cases hx
    cases hd : handling with
    | true => rw [hd] at h; cases h
    | false =>
      rw [hd] at h
      cases n with
      | none => cases h
      | some n =>
        cases h
        refine ⟨hw, rfl, ?_, ?_, (by intro e; cases e), ⟨_, rfl, fun x => ?_⟩, ⟨[], by simp, fun x => ?_⟩⟩
        · intro x hx; have := fsReachNone nost hx; cases this
        · intro y hy
          rw [fsReachNone nost hy]
          exact .inr (.inl ⟨rfl, n, f, rfl⟩)
        · rw [List.mem_map]
          constructor
          · rintro ⟨i, hi, rfl⟩
            exact ⟨n, .refl, List.mem_range.1 hi⟩
          · rintro ⟨k, hk, hi⟩
            have e := fsReachNone nost hk
            simp only [Prod.mk.injEq, Code.forever.injEq, Option.some.injEq] at e
            obtain ⟨e1, e2, e3⟩ := e
            refine ⟨x.index, List.mem_range.2 (by omega), ?_⟩
            rw [← e1, ← e3]
        · constructor
          · intro hx; cases hx
          · intro hx; have := fsReachNone nost hx; cases this
  | ret =>
    cases h
    have nost : ∀ x, ¬ FsStep create (s, .ret) x := by intro x hx; cases hx
    refine ⟨hw, rfl, ?_, ?_, fun _ => rfl, ⟨[], by simp, fun x => ?_⟩, ⟨[s], rfl, fun x => ?_⟩⟩
    · intro x hx; have := fsReachNone nost hx; cases this
    · intro y hy
      rw [fsReachNone nost hy]
      exact .inl rfl
    · constructor
      · intro hx; cases hx
      · rintro ⟨n, hx, -⟩; have := fsReachNone nost hx; cases this
    · rw [List.mem_singleton]
      constructor
      · rintro rfl; exact .refl
      · intro hx; have := fsReachNone nost hx; cases this; rfl

private theorem fsNoDevices {a b : State × Code} (h : FsReach createDefault a b) (ha : a.1.devices = []) : b.1.devices = [] := by
  induction h with
  | refl => exact ha
  | tail _ st ih =>
    cases st with
    | enumerate s n => exact ih
    | known s i n he h =>
      exact ih
    | made s i d n he h hc => cases hc
    | write s dev reg i n h =>
      have hs : s.devices = [] := ih
      rw [hs] at h
      obtain ⟨d, hd, -⟩ := h
      cases hd
    | other s n => exact ih
    | left s l r => exact ih
    | right s l r => exact ih

private theorem fsRunState {create : Nat → Except Err Dev} {handling allow : Bool} {c : Code} {s : State} {w w' : World}
    {l : List State} (hw : w.engineTrapped = none) (h : runState create handling allow c s w = .ok (w', l)) :
    FsRan create handling c s { w with executorTrapped := [], ended := [] } w' ∧ l = w'.ended := by
  unfold runState at h
  cases hc : runCode create handling c s { w with executorTrapped := [], ended := [] } with
  | error e => rw [hc] at h; cases h
  | ok w1 =>
    have r := fsRun create handling c s { w with executorTrapped := [], ended := [] } w1 hw hc
    rw [hc] at h
    change (if (w1.executorTrapped.length > 0 && !allow) = true then Except.error Err.trapped else Except.ok (w1, w1.ended)) = _ at h
    rw [if_neg (by rw [r.executor]; simp)] at h
    cases h
    exact ⟨r, rfl⟩

/-- C66 is false of the code: whatever the program, what inference does and how long it runs, `execute_nf` raises. A device's
model cannot be made, and without one there is none that receives packets. -/
theorem C66_always_raises (infer : List State → List State → Option (List State)) (fuel : Nat) (start : Code) (hf : 0 < fuel) :
    ∃ e, executeNf createDefault infer fuel start = some (.error e) := by
  unfold executeNf
  cases hr : runState createDefault false true start { enumerated := false, devices := [] } World.start with
  | error e => exact ⟨e, rfl⟩
  | ok r =>
    obtain ⟨w, l⟩ := r
    obtain ⟨ran, -⟩ := fsRunState (show World.start.engineTrapped = none from rfl) hr
    obtain ⟨li, e, hl⟩ := ran.inited
    simp only
    split
    · rename_i hlen
      obtain ⟨fuel, rfl⟩ : ∃ k, fuel = k + 1 := ⟨fuel - 1, by omega⟩
      cases hw : w.inited with
      | nil => rw [hw] at hlen; simp at hlen
      | cons x xs =>
        have hx : x ∈ li := by
          rw [show w.inited = li by rw [e]; rfl] at hw
          rw [hw]; exact List.mem_cons_self
        obtain ⟨n, hreach, -⟩ := (hl x).1 hx
        have hdev : x.state.devices = [] := fsNoDevices hreach rfl
        refine ⟨.assertion, ?_⟩
        simp only [findFixedpoint, iterate, receive, hdev, List.filter_nil]
        rfl
    · exact ⟨_, rfl⟩

/-- A driver: it enumerates the devices, sets up both, and handles packets on them; the second branch of initialization halts. -/
def fsDriver (fails : Bool) : Code :=
  let setup (i : Nat) (next : Code) : Code :=
    .pci (some i) true (.write i "RDBAL" 0 true (.write i "RDBAH" 0 true next))
  let main := .enumerate (setup 0 (setup 1 (.forever (some 2) fun i => .write i "TDT" 0 true .ret)))
  if fails then .branch main .halt else main

/-- The driver raises with the code's way of making devices. -/
example : executeNf createDefault (fun _ _ => none) 1 (fsDriver false) = some (.error .assertion) := rfl

/-- C66 is false of the code in a second way: even if devices could be made, a program whose initialization can halt is not
verified, although traps are allowed there ("that's how init can fail", executor.py:166): the engine's list of trapped states
does not exist. -/
theorem C66_init_failure_wrong (create : Nat → Except Err Dev) (infer : List State → List State → Option (List State))
    (fuel : Nat) (start : Code) (s : State) (h : FsReach create (fsInit, start) (s, .halt)) :
    ∃ e, executeNf create infer fuel start = some (.error e) := by
  unfold executeNf
  cases hr : runState create false true start { enumerated := false, devices := [] } World.start with
  | error e => exact ⟨e, rfl⟩
  | ok r =>
    obtain ⟨w, l⟩ := r
    obtain ⟨ran, -⟩ := fsRunState (show World.start.engineTrapped = none from rfl) hr
    exact absurd h (ran.halt s)

/-- A way of making devices that works. -/
def fsCreate (i : Nat) : Except Err Dev := .ok { index := i, regs := [] }

example : FsReach fsCreate (fsInit, fsDriver true) (fsInit, .halt) :=
  .head (.right _ _ _) .refl

example : executeNf fsCreate (fun _ _ => none) 1 (fsDriver true) = some (.error .nameError) := rfl

/-- A packet can come from a device: there is one model of it, and its ring was set. -/
def FsReceives (s : State) (i : Nat) : Prop :=
  ∃ d, s.devices.filter (fun d => d.index == i) = [d] ∧ ("RDBAL", 0) ∈ d.regs ∧ ("RDBAH", 0) ∈ d.regs

private theorem fsReceive {s : State} {i : Nat} {u : Unit} (h : receive s i = .ok u) : FsReceives s i := by
  unfold receive at h
  split at h
  · rename_i d hd
    split at h
    · rename_i hr
      exact ⟨d, hd, hr⟩
    · cases h
  · cases h

private theorem fsIterate {create : Nat → Except Err Dev} (data : List Inited) (w w' : World) (r : List State)
    (hw : w.engineTrapped = none) (h : iterate create data w = .ok (w', r)) :
    w'.engineTrapped = none ∧
      (∀ x ∈ data, FsReceives x.state x.index ∧
        ∀ y, FsReach create (x.state, x.func x.index) y → y.2 = .ret ∨ ∃ z, FsStep create y z) ∧
      ∀ s, s ∈ r ↔ ∃ x ∈ data, FsReach create (x.state, x.func x.index) (s, .ret) := by
  induction data generalizing w w' r with
  | nil => cases h; exact ⟨hw, by simp, by simp⟩
  | cons x xs ih =>
    rw [iterate] at h
    cases hx : receive x.state x.index with
    | error e => rw [hx] at h; cases h
    | ok u =>
      rw [hx] at h
      cases hr : runState create true false (x.func x.index) x.state w with
      | error e =>
        change (runState create true false (x.func x.index) x.state w >>= _) = _ at h
        rw [hr] at h; cases h
      | ok q =>
        obtain ⟨w1, l1⟩ := q
        change (runState create true false (x.func x.index) x.state w >>= _) = _ at h
        rw [hr] at h
        obtain ⟨ran, e1⟩ := fsRunState hw hr
        change (iterate create xs w1 >>= _) = _ at h
        cases hi : iterate create xs w1 with
        | error e => rw [hi] at h; cases h
        | ok q =>
          obtain ⟨w2, l2⟩ := q
          rw [hi] at h
          cases h
          obtain ⟨a, b, c⟩ := ih w1 w' l2 ran.engine hi
          refine ⟨a, ?_, ?_⟩
          · intro y hy
            rcases List.mem_cons.1 hy with rfl | hy
            · refine ⟨fsReceive hx, fun y hy => ?_⟩
              rcases ran.stuck y hy with e | ⟨e, -⟩ | e
              · exact .inl e
              · cases e
              · exact .inr e
            · exact b y hy
          · intro s
            obtain ⟨le, ee, he⟩ := ran.ended
            rw [List.mem_append, c s, e1, show w1.ended = le by rw [ee]; rfl, he s]
            constructor
            · rintro (hh | ⟨y, hy, hh⟩)
              · exact ⟨x, List.mem_cons_self, hh⟩
              · exact ⟨y, List.mem_cons_of_mem _ hy, hh⟩
            · rintro ⟨y, hy, hh⟩
              rcases List.mem_cons.1 hy with rfl | hy
              · exact .inl hh
              · exact .inr ⟨y, hy, hh⟩

private theorem fsZip (states : List State) (data : List Inited) (h : states.length = data.length) :
    (List.zipWith (fun s x => ({ x with state := s } : Inited)) states data).map (fun x => (x.index, x.func)) =
      data.map fun x => (x.index, x.func) := by
  induction data generalizing states with
  | nil => cases states with
    | nil => rfl
    | cons => cases h
  | cons x xs ih => cases states with
    | nil => cases h
    | cons s ss => simp [ih ss (by simpa using h)]

private theorem fsFixed {create : Nat → Except Err Dev} {infer : List State → List State → Option (List State)}
    (hi : ∀ a b c, infer a b = some c → c.length = a.length) (fuel : Nat) (data : List Inited) (w : World) (r : List State)
    (hw : w.engineTrapped = none) (h : findFixedpoint create infer fuel data w = some (.ok r)) :
    ∃ last : List Inited, last.map (fun x => (x.index, x.func)) = data.map (fun x => (x.index, x.func)) ∧
      infer (last.map (·.state)) r = none ∧
      (∀ x ∈ last, FsReceives x.state x.index ∧
        ∀ y, FsReach create (x.state, x.func x.index) y → y.2 = .ret ∨ ∃ z, FsStep create y z) ∧
      ∀ s, s ∈ r ↔ ∃ x ∈ last, FsReach create (x.state, x.func x.index) (s, .ret) := by
  induction fuel generalizing data w with
  | zero => cases h
  | succ fuel ih =>
    rw [findFixedpoint] at h
    cases hit : iterate create data w with
    | error e => rw [hit] at h; cases h
    | ok q =>
      obtain ⟨w1, res⟩ := q
      rw [hit] at h
      obtain ⟨a, b, c⟩ := fsIterate data w w1 res hw hit
      simp only at h
      cases hinf : infer (data.map (·.state)) res with
      | none =>
        rw [hinf] at h
        cases h
        exact ⟨data, rfl, hinf, b, c⟩
      | some states =>
        rw [hinf] at h
        obtain ⟨last, e, rest⟩ := ih _ w1 a h
        refine ⟨last, e.trans (fsZip states data ?_), rest⟩
        have := hi _ _ _ hinf
        simpa using this

/-- C66 for any way of making devices (the code's always raises) that raises neither there nor in initialization: what
`execute_nf` returns are all ends of all paths of handling a packet, for each function that initialization hands over, on each
index below the given length, from states at which inference stopped and in which a packet can come from the device; and no path halts or gets
stuck: all of its accesses to devices are accepted, those of initialization end by returning or by handing over, those of handling by returning. -/
theorem C66_explores_partial (create : Nat → Except Err Dev) (infer : List State → List State → Option (List State))
    (hi : ∀ a b c, infer a b = some c → c.length = a.length) (fuel : Nat) (start : Code) (r : List State)
    (h : executeNf create infer fuel start = some (.ok r)) :
    (∀ y, FsReach create (fsInit, start) y → y.2 = .ret ∨ (∃ n f, y.2 = .forever (some n) f) ∨ ∃ z, FsStep create y z) ∧
    ∃ last : List Inited, last ≠ [] ∧ infer (last.map (·.state)) r = none ∧
      (∀ i func, (∃ x ∈ last, x.index = i ∧ x.func = func) ↔
        ∃ s n, FsReach create (fsInit, start) (s, .forever (some n) func) ∧ i < n) ∧
      (∀ x ∈ last, FsReceives x.state x.index ∧
        ∀ y, FsReach create (x.state, x.func x.index) y → y.2 = .ret ∨ ∃ z, FsStep create y z) ∧
      ∀ s, s ∈ r ↔ ∃ x ∈ last, FsReach create (x.state, x.func x.index) (s, .ret) := by
  unfold executeNf at h
  cases hr : runState create false true start { enumerated := false, devices := [] } World.start with
  | error e => rw [hr] at h; cases h
  | ok q =>
    obtain ⟨w, l⟩ := q
    rw [hr] at h
    obtain ⟨ran, -⟩ := fsRunState (show World.start.engineTrapped = none from rfl) hr
    obtain ⟨li, e, hl⟩ := ran.inited
    have e' : w.inited = li := by rw [e]; rfl
    simp only at h
    split at h
    · rename_i hlen
      obtain ⟨last, em, hinf, hok, hres⟩ := fsFixed hi fuel w.inited w r ran.engine h
      refine ⟨fun y hy => ?_, last, ?_, hinf, ?_, hok, hres⟩
      · rcases ran.stuck y hy with e | ⟨-, e⟩ | e
        · exact .inl e
        · exact .inr (.inl e)
        · exact .inr (.inr e)
      · rintro rfl
        have := congrArg List.length em
        simp at this
        rw [this] at hlen
        simp at hlen
      · intro i func
        have hmem : (∃ x ∈ last, x.index = i ∧ x.func = func) ↔ ∃ x ∈ li, x.index = i ∧ x.func = func := by
          have h1 : ∀ d : List Inited, (∃ x ∈ d, x.index = i ∧ x.func = func) ↔
              (i, func) ∈ d.map fun x => (x.index, x.func) := by
            intro d; simp [List.mem_map]
          rw [h1, h1, em, e']
        rw [hmem]
        constructor
        · rintro ⟨x, hx, rfl, rfl⟩
          obtain ⟨n, hreach, hn⟩ := (hl x).1 hx
          exact ⟨x.state, n, hreach, hn⟩
        · rintro ⟨s, n, hreach, hn⟩
          exact ⟨⟨s, i, func⟩, (hl ⟨s, i, func⟩).2 ⟨n, hreach, hn⟩, rfl, rfl⟩
    · cases h

/-- With a way of making devices that works, the driver is explored: one final state for each of its two devices. -/
example : (match executeNf fsCreate (fun _ _ => none) 1 (fsDriver false) with
    | some (.ok r) => r.length
    | _ => 0) = 2 := rfl

end Verif.Props
