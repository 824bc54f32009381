/-
Property C80: the bridge follows the best path to a root that has been announced to it.
-/
import Verif.Props.Bridge
import Verif.Spec.SpanningTree

set_option autoImplicit false

namespace Verif.Props

open Verif.PacketSpec
open Verif.SpanningTree (qword offer Path Answer Matches)
open Verif.Nf (Packet Out)
open Verif.Nf.Bridge (Stp State)

/-- What the bridge knows of the spanning tree. -/
private def stpView (s : Stp) : SpanningTree.State := ⟨⟨s.root, s.rootCost, s.rootPort⟩, s.disabled, s.lastUpdate⟩

private theorem dword_lt (p : Packet) (i : Nat) : dword p i < 2 ^ 32 := by
  have h : ∀ j, byte p j < 256 := fun j => (p.data j).toNat_lt
  have := h i; have := h (i + 1); have := h (i + 2); have := h (i + 3)
  unfold dword; omega

private theorem qword_lt (p : Packet) (i : Nat) : qword p i < 2 ^ 64 := by
  have := dword_lt p i; have := dword_lt p (i + 4)
  unfold qword; omega

private theorem ld64_qword (p : Packet) (i : Nat) : Nf.Bridge.ld64 p.data i = qword p i := by
  simp only [Nf.Bridge.ld64, qword, Nf.ld32_dword]

private theorem ld32_stored (m : Nat → UInt8) (a v : Nat) : Nf.ld32 (Nf.st32 m a v) a = v % 2 ^ 32 := by
  simp only [Nf.ld32, Nf.ld16, Nf.st32, Nf.st16, show a ≠ a + 2 by omega, show a ≠ a + 2 + 1 by omega, ↓reduceIte, show a + 1 ≠ a by omega,
    show a + 1 ≠ a + 2 by omega, show a + 1 ≠ a + 2 + 1 by omega, show a + 2 + 1 ≠ a + 2 by omega, UInt8.toNat_ofNat']
  omega

private theorem ld32_elsewhere (m : Nat → UInt8) {a b : Nat} (v : Nat) (h : b + 4 ≤ a ∨ a + 4 ≤ b) : Nf.ld32 (Nf.st32 m a v) b = Nf.ld32 m b :=
  Nf.ld32_congr fun x h1 h2 => Nf.st32_other _ _ _ _ (by omega)

/-- What an announcement contains. -/
private theorem announced (p : Packet) {r c s : Nat} (len : Nat) (hr : r < 2 ^ 64) (hc : c < 2 ^ 32) (hs : s < 2 ^ 64) :
    ∀ q, q = ({ p with data := Nf.Bridge.writeBpdu p.data r c s, length := len } : Packet) → qword q 14 = r ∧ dword q 22 = c ∧ qword q 26 = s := by
  rintro q rfl
  rw [← ld64_qword, ← ld64_qword, ← Nf.ld32_dword]
  simp only [Nf.Bridge.writeBpdu, Nf.Bridge.st64, Nf.Bridge.ld64]
  refine ⟨?_, ?_, ?_⟩
  · rw [ld32_elsewhere (a := 30) (b := 14) _ _ (by omega), ld32_elsewhere (a := 26) (b := 14) _ _ (by omega), ld32_elsewhere (a := 22) (b := 14) _ _ (by omega),
      ld32_elsewhere (a := 18) (b := 14) _ _ (by omega), ld32_stored, ld32_elsewhere (a := 30) (b := 18) _ _ (by omega), ld32_elsewhere (a := 26) (b := 18) _ _ (by omega),
      ld32_elsewhere (a := 22) (b := 18) _ _ (by omega), ld32_stored]
    omega
  · rw [ld32_elsewhere (a := 30) (b := 22) _ _ (by omega), ld32_elsewhere (a := 26) (b := 22) _ _ (by omega), ld32_stored]
    omega
  · rw [ld32_elsewhere (a := 30) (b := 26) _ _ (by omega), ld32_stored, ld32_stored]
    omega

/-- The values fit their fields. -/
private structure StpOk (s : Stp) : Prop where
  root : s.root < 2 ^ 64
  cost : s.rootCost < 2 ^ 32
  self : s.self < 2 ^ 64

private theorem message (p : Packet) {s : Stp} (h : StpOk s) (path : Path) (hp : path.root = s.root ∧ path.cost = s.rootCost) (len : Nat) :
    Matches s.self p (.announce path len) [.flood { p with data := Nf.Bridge.writeBpdu p.data s.root s.rootCost s.self, length := len } true] := by
  obtain ⟨h1, h2, h3⟩ := announced p len h.root h.cost h.self _ rfl
  have hm := writeBpdu_message p s.root s.rootCost s.self len
  exact ⟨_, rfl, h1.trans hp.1.symm, h2.trans hp.2.symm, h3, rfl, rfl, rfl, hm.2.2⟩

private theorem step_spec {s s' : State} {p : Packet} {outs : List Out} (hok : StpOk s.stp) (h : Nf.Bridge.handle s p = some (s', outs)) :
    SpanningTree.step s.stp.updateTime (stpView s.stp) p = (stpView s'.stp, (SpanningTree.step s.stp.updateTime (stpView s.stp) p).2) ∧
    Matches s.stp.self p (SpanningTree.step s.stp.updateTime (stpView s.stp) p).2 outs ∧ StpOk s'.stp ∧
    s'.stp.self = s.stp.self ∧ s'.stp.updateTime = s.stp.updateTime := by
  simp only [Nf.Bridge.handle, Nf.Bridge.stpHandle] at h
  unfold SpanningTree.step
  split at h
  · rename_i hper
    have hper' : ((stpView s.stp).last + s.stp.updateTime) % 2 ^ 64 < p.time := hper
    simp only [Option.bind_eq_bind, Option.bind_some, Option.some.injEq, Prod.mk.injEq] at h
    obtain ⟨rfl, rfl⟩ := h
    simp only [if_pos hper']
    exact ⟨rfl, message p hok _ ⟨rfl, rfl⟩ 34, ⟨hok.root, hok.cost, hok.self⟩, trivial, trivial⟩
  · rename_i hper
    have hper' : ¬ ((stpView s.stp).last + s.stp.updateTime) % 2 ^ 64 < p.time := hper
    simp only [if_neg hper']
    cases hb : Nf.Bridge.isStpDst p.data with
    | false =>
      rw [hb] at h
      have hd : BridgeSpec.dst p ≠ BridgeSpec.stpAddr := fun h => by rw [(isStpDst_iff p).2 h] at hb; cases hb
      simp only [if_pos hd]
      simp only [Bool.not_false, ↓reduceIte, Option.bind_eq_bind, Option.bind_some, Nf.Bridge.handleData,
        Option.bind_eq_some_iff, Prod.exists, Option.some.injEq, Prod.mk.injEq] at h
      obtain ⟨tb, dv, _, o, ho, rfl, rfl⟩ := h
      refine ⟨rfl, ?_, hok, rfl, rfl⟩
      unfold Nf.Bridge.forward at ho
      split at ho
      · simp only [Option.bind_eq_bind, Option.bind_eq_some_iff] at ho
        obtain ⟨d, _, ho⟩ := ho
        split at ho
        · cases ho; exact .inr (.inl ⟨_, rfl⟩)
        · cases ho; exact .inl rfl
      · cases ho; exact .inr (.inr ⟨_, rfl⟩)
    | true =>
      rw [hb] at h
      have hd : ¬ BridgeSpec.dst p ≠ BridgeSpec.stpAddr := not_not.2 ((isStpDst_iff p).1 hb)
      simp only [if_neg hd]
      simp only [Bool.not_true, Bool.false_eq_true, ↓reduceIte, Option.bind_eq_bind, Option.bind_eq_some_iff,
        Option.map_eq_some_iff, Prod.exists, Prod.mk.injEq] at h
      obtain ⟨st, oo, ⟨st', outs', h3, rfl, rfl⟩, h4⟩ := h
      simp only [Option.some.injEq, Prod.mk.injEq] at h4
      obtain ⟨rfl, rfl⟩ := h4
      simp only [Nf.Bridge.stpBpdu, ld64_qword, Nf.ld32_dword] at h3
      have hq := qword_lt p 14
      have hu : ∀ st : Stp, Nf.Bridge.stpUpdated st p = some (st', outs') → StpOk st → st.self = s.stp.self → st.updateTime = s.stp.updateTime → st.lastUpdate = s.stp.lastUpdate → st.disabled = s.stp.disabled →
          offer p = ⟨st.root, st.rootCost, st.rootPort⟩ →
          ({ stpView s.stp with best := offer p, blocked := (stpView s.stp).blocked.set p.device false } : SpanningTree.State) = stpView st' ∧
          Matches s.stp.self p (.announce (offer p) p.length) outs' ∧ StpOk st' ∧ st'.self = s.stp.self ∧ st'.updateTime = s.stp.updateTime := by
        intro st h hst e1 e2 e3 e4 e5
        unfold Nf.Bridge.stpUpdated at h
        split at h
        · cases h
          have hport : st.rootPort = p.device := by have := congrArg Path.port e5; exact this.symm
          refine ⟨?_, ?_, ⟨hst.root, hst.cost, hst.self⟩, e1, e2⟩
          · simp only [stpView, e5, e3, ← e4, hport]
          · rw [← e1]
            exact message p hst _ ⟨by rw [e5], by rw [e5]⟩ p.length
        · cases h
      have hcost : (dword p 22 + 10) % 2 ^ 32 < 2 ^ 32 := Nat.mod_lt _ (by norm_num)
      by_cases h1 : qword p 14 > s.stp.root
      · rw [if_pos h1] at h3
        have h1' : (stpView s.stp).best.root < (offer p).root := h1
        simp only [if_pos h1']
        split at h3
        · cases h3
          exact ⟨rfl, rfl, ⟨hok.root, hok.cost, hok.self⟩, rfl, rfl⟩
        · cases h3
      · rw [if_neg h1] at h3
        have h1' : ¬ (stpView s.stp).best.root < (offer p).root := h1
        simp only [if_neg h1']
        by_cases h2 : qword p 14 < s.stp.root
        · rw [if_pos h2] at h3
          have hb : (offer p).Better (stpView s.stp).best := .inl h2
          simp only [if_pos hb]
          obtain ⟨a, b⟩ := hu _ h3 ⟨hq, hcost, hok.self⟩ rfl rfl rfl rfl rfl
          exact ⟨by rw [a], b⟩
        · rw [if_neg h2] at h3
          have he : qword p 14 = s.stp.root := by omega
          by_cases h4 : (dword p 22 + 10) % 2 ^ 32 < s.stp.rootCost
          · rw [if_pos ⟨he, h4⟩] at h3
            have hb : (offer p).Better (stpView s.stp).best := .inr ⟨he, .inl h4⟩
            simp only [if_pos hb]
            obtain ⟨a, b⟩ := hu _ h3 ⟨hok.root, hcost, hok.self⟩ rfl rfl rfl rfl (by simp [offer, he])
            exact ⟨by rw [a], b⟩
          · rw [if_neg (fun h => h4 h.2)] at h3
            by_cases h5 : (dword p 22 + 10) % 2 ^ 32 = s.stp.rootCost ∧ p.device < s.stp.rootPort
            · rw [if_pos ⟨he, h5⟩] at h3
              have hb : (offer p).Better (stpView s.stp).best := .inr ⟨he, .inr h5⟩
              simp only [if_pos hb]
              obtain ⟨a, b⟩ := hu _ h3 ⟨hok.root, hok.cost, hok.self⟩ rfl rfl rfl rfl (by simp only [offer, he, h5.1])
              exact ⟨by rw [a], b⟩
            · rw [if_neg (fun h => h5 h.2)] at h3
              have hb : ¬ (offer p).Better (stpView s.stp).best := by
                rintro (h | ⟨_, h | h⟩)
                · exact h2 h
                · exact h4 h
                · exact h5 h
              simp only [if_neg hb]
              cases h3
              exact ⟨rfl, rfl, hok, rfl, rfl⟩

/-- The answers match the outputs, frame by frame. -/
def Answers (self : Nat) : List Packet → List Answer → List (List Out) → Prop
  | [], [], [] => True
  | p :: ps, a :: as, o :: os => Matches self p a o ∧ Answers self ps as os
  | _, _, _ => False

private theorem run_spec (ps : List Packet) (s s' : State) (outs : List (List Out)) (hok : StpOk s.stp) (h : Nf.Bridge.run s ps = some (s', outs)) :
    (SpanningTree.run s.stp.updateTime (stpView s.stp) ps).1 = stpView s'.stp ∧ Answers s.stp.self ps (SpanningTree.run s.stp.updateTime (stpView s.stp) ps).2 outs := by
  induction ps generalizing s outs with
  | nil => simp only [Nf.Bridge.run] at h; cases h; exact ⟨rfl, trivial⟩
  | cons p ps ih =>
    simp only [Nf.Bridge.run, Option.bind_eq_bind, Option.bind_eq_some_iff, Prod.exists, Option.some.injEq, Prod.mk.injEq] at h
    obtain ⟨s1, o, h1, s2, os, h2, rfl, rfl⟩ := h
    obtain ⟨e1, e2, e3, e4, e5⟩ := step_spec hok h1
    obtain ⟨i1, i2⟩ := ih s1 os e3 h2
    have e1' : (SpanningTree.step s.stp.updateTime (stpView s.stp) p).1 = stpView s1.stp := by rw [e1]
    rw [e5] at i1 i2
    rw [e4] at i2
    simp only [SpanningTree.run, e1']
    exact ⟨i1, e2, i2⟩

/-- C80, the algorithm. From the initial state of a bridge, for all frames: what it knows of the spanning tree is what the
specification knows; the frames the specification does not consume are the ones forwarded; and every announcement is the frame
that caused it with the announced path and the identifier of the bridge in it. -/
theorem C80_spanning_tree (n bid expiration capacity updateTime : Nat) (hb : bid < 2 ^ 64) (s s' : State) (h0 : Nf.Bridge.init n bid expiration capacity updateTime = some s)
    (ps : List Packet) (outs : List (List Out)) (h : Nf.Bridge.run s ps = some (s', outs)) :
    (SpanningTree.run updateTime ⟨⟨bid, 0, 0⟩, List.replicate n false, 0⟩ ps).1 = ⟨⟨s'.stp.root, s'.stp.rootCost, s'.stp.rootPort⟩, s'.stp.disabled, s'.stp.lastUpdate⟩ ∧
    Answers bid ps (SpanningTree.run updateTime ⟨⟨bid, 0, 0⟩, List.replicate n false, 0⟩ ps).2 outs := by
  have hs : s.stp = Nf.Bridge.stpInit n bid updateTime := by
    unfold Nf.Bridge.init at h0
    split at h0
    · cases h0
    · simp only [Option.bind_eq_bind, Option.bind_eq_some_iff, Option.some.injEq] at h0
      obtain ⟨_, _, rfl⟩ := h0
      rfl
  have := run_spec ps s s' outs (by rw [hs]; exact ⟨hb, by show 0 < 2 ^ 32; decide, hb⟩) h
  rw [hs] at this
  exact this

private theorem not_better_trans {a b c : Path} (h1 : ¬ a.Better b) (h2 : ¬ b.Better c) : ¬ a.Better c := by
  unfold Path.Better at *; omega

private theorem better_ne {a b : Path} (h : a.Better b) : a ≠ b := by
  rintro rfl
  unfold Path.Better at h; omega

/-- A frame offers nothing that is read, or nothing better, or something better. -/
private theorem step_cases (every : Nat) (s : SpanningTree.State) (p : Packet) (ps : List Packet) :
    ((SpanningTree.step every s p).1.best = s.best ∧ (SpanningTree.offers every s (p :: ps) = SpanningTree.offers every (SpanningTree.step every s p).1 ps ∨
      SpanningTree.offers every s (p :: ps) = offer p :: SpanningTree.offers every (SpanningTree.step every s p).1 ps ∧ ¬ (offer p).Better s.best)) ∨
    ((SpanningTree.step every s p).1.best = offer p ∧ (offer p).Better s.best ∧
      SpanningTree.offers every s (p :: ps) = offer p :: SpanningTree.offers every (SpanningTree.step every s p).1 ps) := by
  have hstep : ∀ x, SpanningTree.step every s p = x → SpanningTree.offers every s (p :: ps) =
      if (s.last + every) % 2 ^ 64 < p.time then SpanningTree.offers every x.1 ps else if BridgeSpec.dst p ≠ BridgeSpec.stpAddr then SpanningTree.offers every x.1 ps
      else offer p :: SpanningTree.offers every x.1 ps := by
    rintro x rfl; rfl
  by_cases h1 : (s.last + every) % 2 ^ 64 < p.time
  · have e : SpanningTree.step every s p = ({ s with last := p.time }, .announce s.best 34) := by unfold SpanningTree.step; rw [if_pos h1]
    rw [hstep _ e, e, if_pos h1]
    exact .inl ⟨rfl, .inl rfl⟩
  by_cases h2 : BridgeSpec.dst p ≠ BridgeSpec.stpAddr
  · have e : SpanningTree.step every s p = (s, .data) := by unfold SpanningTree.step; rw [if_neg h1, if_pos h2]
    rw [hstep _ e, e, if_neg h1, if_pos h2]
    exact .inl ⟨rfl, .inl rfl⟩
  by_cases h3 : s.best.root < (offer p).root
  · have e : SpanningTree.step every s p = ({ s with blocked := s.blocked.set p.device true }, .silent) := by
      unfold SpanningTree.step; rw [if_neg h1, if_neg h2, if_pos h3]
    rw [hstep _ e, e, if_neg h1, if_neg h2]
    exact .inl ⟨rfl, .inr ⟨rfl, by unfold Path.Better; omega⟩⟩
  by_cases h4 : (offer p).Better s.best
  · have e : SpanningTree.step every s p = ({ s with best := offer p, blocked := s.blocked.set p.device false }, .announce (offer p) p.length) := by
      unfold SpanningTree.step; rw [if_neg h1, if_neg h2, if_neg h3, if_pos h4]
    rw [hstep _ e, e, if_neg h1, if_neg h2]
    exact .inr ⟨rfl, h4, rfl⟩
  · have e : SpanningTree.step every s p = (s, .silent) := by
      unfold SpanningTree.step; rw [if_neg h1, if_neg h2, if_neg h3, if_neg h4]
    rw [hstep _ e, e, if_neg h1, if_neg h2]
    exact .inl ⟨rfl, .inr ⟨rfl, h4⟩⟩

/-- C80, the best path. The path the bridge follows is its own or one that was offered, and none that was offered is better. -/
theorem C80_best (every : Nat) (ps : List Packet) (s : SpanningTree.State) :
    (SpanningTree.run every s ps).1.best ∈ s.best :: SpanningTree.offers every s ps ∧
    ∀ o ∈ s.best :: SpanningTree.offers every s ps, ¬ o.Better (SpanningTree.run every s ps).1.best := by
  induction ps generalizing s with
  | nil =>
    refine ⟨by simp [SpanningTree.run], fun o ho => ?_⟩
    obtain rfl : o = s.best := by simpa [SpanningTree.offers] using ho
    simp only [SpanningTree.run, Path.Better]
    omega
  | cons p ps ih =>
    obtain ⟨i1, i2⟩ := ih (SpanningTree.step every s p).1
    simp only [SpanningTree.run]
    generalize (SpanningTree.run every (SpanningTree.step every s p).1 ps).1.best = b at i1 i2 ⊢
    rcases step_cases every s p ps with ⟨k1, k2 | ⟨k2, k3⟩⟩ | ⟨k1, k2, k3⟩
    · rw [k1] at i1 i2; rw [k2]; exact ⟨i1, i2⟩
    · rw [k1] at i1 i2
      rw [k2]
      refine ⟨?_, fun o ho => ?_⟩
      · rcases List.mem_cons.1 i1 with rfl | h
        · exact List.mem_cons_self
        · exact List.mem_cons_of_mem _ (List.mem_cons_of_mem _ h)
      · rcases List.mem_cons.1 ho with rfl | ho
        · exact i2 _ List.mem_cons_self
        · rcases List.mem_cons.1 ho with rfl | ho
          · exact not_better_trans k3 (i2 _ List.mem_cons_self)
          · exact i2 o (List.mem_cons_of_mem _ ho)
    · rw [k1] at i1 i2
      rw [k3]
      refine ⟨List.mem_cons_of_mem _ i1, fun o ho => ?_⟩
      rcases List.mem_cons.1 ho with rfl | ho
      · refine not_better_trans (b := offer p) ?_ (i2 _ List.mem_cons_self)
        unfold Path.Better at *; omega
      · exact i2 o ho

/-- C80, termination. Every path that is passed on is better than all passed on before it and than the one known at first, so no
path is passed on twice. -/
theorem C80_passed_on (every : Nat) (ps : List Packet) (s : SpanningTree.State) :
    (s.best :: SpanningTree.passedOn every s ps).Pairwise fun a b => b.Better a := by
  induction ps generalizing s with
  | nil => simp [SpanningTree.passedOn]
  | cons p ps ih =>
    have ih := ih (SpanningTree.step every s p).1
    simp only [SpanningTree.passedOn]
    rcases step_cases every s p ps with ⟨k1, -⟩ | ⟨k1, k2, -⟩
    · rw [if_pos k1]
      rw [k1] at ih
      exact ih
    · rw [k1] at ih ⊢
      rw [if_neg (better_ne k2)]
      refine List.pairwise_cons.2 ⟨fun b hb => ?_, ih⟩
      rcases List.mem_cons.1 hb with rfl | hb
      · exact k2
      · have := (List.pairwise_cons.1 ih).1 b hb
        unfold Path.Better at *; omega

/-- A spanning tree message announcing `root` with cost 0 applies: a better root is followed, a worse one blocks its port, and the
same root at a port with a smaller number is followed. -/
example : ((Nf.Bridge.init 4 7 10 4 1000).bind fun s => (Nf.Bridge.run s [bpduFrame 5 2 1, bpduFrame 9 3 2, bpduFrame 5 1 3, bpduFrame 5 1 4]).map
      fun r => ((r.1.stp.root, r.1.stp.rootCost, r.1.stp.rootPort), r.1.stp.disabled, r.2.map fun os => os.map (sentTo 4))) =
    some ((5, 10, 1), [false, false, false, true], [[[0, 1, 3]], [], [[0, 2, 3]], []]) ∧
    SpanningTree.offers 1000 ⟨⟨7, 0, 0⟩, List.replicate 4 false, 0⟩ [bpduFrame 5 2 1, bpduFrame 9 3 2, bpduFrame 5 1 3, bpduFrame 5 1 4] = [⟨5, 10, 2⟩, ⟨9, 10, 3⟩, ⟨5, 10, 1⟩, ⟨5, 10, 1⟩] ∧
    SpanningTree.passedOn 1000 ⟨⟨7, 0, 0⟩, List.replicate 4 false, 0⟩ [bpduFrame 5 2 1, bpduFrame 9 3 2, bpduFrame 5 1 3, bpduFrame 5 1 4] = [⟨5, 10, 2⟩, ⟨5, 10, 1⟩] := by
  decide

/-- C80 is false for the comment "The port to the root must be enabled" (spanning_tree.h:94): a message with a worse root on the
port to the root blocks it, and the bridge still takes it to be the port to the root. -/
theorem C80_root_port_blocked : ∃ (s s' : State) (ps : List Packet) (outs : List (List Out)), Nf.Bridge.init 4 7 10 4 1000 = some s ∧
    Nf.Bridge.run s ps = some (s', outs) ∧ s'.stp.root = 5 ∧ s'.stp.disabled[s'.stp.rootPort]? = some true := by
  have h : ((Nf.Bridge.init 4 7 10 4 1000).bind fun s => (Nf.Bridge.run s [bpduFrame 5 2 1, bpduFrame 9 2 2]).map
      fun r => (r.1.stp.root, r.1.stp.disabled[r.1.stp.rootPort]?)) = some (5, some true) := by decide
  simp only [Option.bind_eq_some_iff, Option.map_eq_some_iff] at h
  obtain ⟨s, h1, ⟨s', outs⟩, h2, h3⟩ := h
  simp only [Prod.mk.injEq] at h3
  exact ⟨s, s', _, outs, h1, h2, h3.1, h3.2⟩

end Verif.Props
