/- The whole machine (model in Verif.Env.Machine), from the theorems on one agent: an agent
runs as if its handler had been told the results of the shared network function. -/
import Verif.Env.Machine
import Verif.Props.Ixgbe

set_option autoImplicit false

namespace Verif.Machine
open Verif.Ixgbe

variable {σ τ D : Type}

/-! ### Specification: calls of the handler one after the other -/

/-- A call of the handler. -/
structure Call (D : Type) where
  device : Nat
  time : Nat
  data : D
  len : Nat

/-- The state of the network function after some calls, each with an array of zeros. -/
def after (h : Handler σ D) (nf : σ) : List (Call D) → σ
  | [] => nf
  | c :: cs => after h (h c.device c.time nf c.data c.len fun _ => 0).1 cs

/-- The contents and output lengths after each of the calls. -/
def results (h : Handler σ D) (nf : σ) : List (Call D) → List (Call D × D × (Nat → Nat))
  | [] => []
  | c :: cs =>
    let r := h c.device c.time nf c.data c.len fun _ => 0
    (c, r.2) :: results h r.1 cs

theorem after_append (h : Handler σ D) (nf : σ) (cs : List (Call D)) (c : Call D) :
    after h nf (cs ++ [c]) = (h c.device c.time (after h nf cs) c.data c.len fun _ => 0).1 := by
  induction cs generalizing nf with
  | nil => rfl
  | cons d ds ih => exact ih _

theorem results_append (h : Handler σ D) (nf : σ) (cs : List (Call D)) (c : Call D) :
    results h nf (cs ++ [c]) = results h nf cs ++
      [(c, (h c.device c.time (after h nf cs) c.data c.len fun _ => 0).2)] := by
  induction cs generalizing nf with
  | nil => rfl
  | cons d ds ih => simp only [List.cons_append, results, after]; rw [ih]

theorem results_calls (h : Handler σ D) (nf : σ) (cs : List (Call D)) : (results h nf cs).map Prod.fst = cs := by
  induction cs generalizing nf with
  | nil => rfl
  | cons d ds ih => simp [results, ih]

/-- The calls of one device. -/
def ofDevice (i : Nat) (cs : List (Call D)) : List (Call D) := cs.filter fun c => c.device == i

/-- The results of the calls of one device. -/
def resultsOf (h : Handler σ D) (nf : σ) (cs : List (Call D)) (i : Nat) : List (D × (Nat → Nat)) :=
  ((results h nf cs).filter fun r => r.1.device == i).map Prod.snd

theorem resultsOf_length (h : Handler σ D) (nf : σ) (cs : List (Call D)) (i : Nat) :
    (resultsOf h nf cs i).length = (ofDevice i cs).length := by
  have : ofDevice i cs = ((results h nf cs).filter fun r => r.1.device == i).map Prod.fst := by
    unfold ofDevice
    conv_lhs => rw [← results_calls h nf cs]
    rw [List.filter_map]; rfl
  rw [this]
  simp [resultsOf]

/-! ### The oracle -/

/-- Results still to be given, and arguments seen. -/
structure Told (D : Type) where
  rest : List (D × (Nat → Nat))
  seen : List (D × Nat × (Nat → Nat))

def clamp (f : Nat → Nat) : Nat → Nat := fun n => if f n < 2 ^ 16 then f n else 0

def oracle : Ixgbe.Handler (Told D) D := fun x d len l =>
  match x.rest with
  | [] => (⟨[], x.seen ++ [(d, len, l)]⟩, d, fun _ => 0)
  | o :: rest => (⟨rest, x.seen ++ [(d, len, l)]⟩, o.1, clamp o.2)

theorem oracle_bounded (outs : Nat) : Bounded outs (oracle (D := D)) := by
  intro x d len n _ _
  unfold oracle
  split
  · show 0 < 2 ^ 16; decide
  · show clamp _ n < 2 ^ 16
    unfold clamp; split <;> omega

theorem oracle_seen (x : Told D) (l : List (D × Nat)) :
    (handleAll oracle x l).1.seen = x.seen ++ l.map fun p => (p.1, p.2, fun _ => 0) := by
  induction l generalizing x with
  | nil => simp [handleAll]
  | cons p ps ih =>
    simp only [handleAll]
    rw [ih]
    cases hx : x.rest <;> simp [oracle, hx]

theorem oracle_results (x : Told D) (l : List (D × Nat)) (i : Nat) (hi : i < l.length) (o : D × (Nat → Nat))
    (ho : x.rest[i]? = some o) : (handleAll oracle x l).2[i]? = some (o.1, clamp o.2) := by
  induction l generalizing x i with
  | nil => simp at hi
  | cons p ps ih =>
    simp only [handleAll]
    cases hx : x.rest with
    | nil => simp [hx] at ho
    | cons q qs =>
      cases i with
      | zero => simp [hx] at ho; subst ho; simp [oracle, hx]
      | succ i =>
        rw [List.getElem?_cons_succ]
        refine ih _ i (by simpa using hi) ?_
        simp only [oracle, hx]
        simpa [hx] using ho

/-! ### One agent, whatever the state of the network function -/

theorem setNf_setNf {ρ : Type} (s : Ixgbe.St σ D) (x : τ) (y : ρ) : setNf (setNf s x) y = setNf s y := rfl

theorem agentStep_setNf {outs : Nat} {h : Ixgbe.Handler σ D} {h' : Ixgbe.Handler τ D} {ρ : Type} (s : Ixgbe.St ρ D) (x : σ) (y : τ)
    (hpc : ∀ fc len, s.pc ≠ .handle fc len) :
    agentStep outs h' (setNf s y) = setNf (agentStep outs h (setNf s x)) y := by
  unfold agentStep
  cases hp : s.pc with
  | handle fc len => exact absurd hp (hpc fc len)
  | _ => simp only [setNf, hp] <;> (repeat' split) <;> rfl

theorem agentStep_nf {outs : Nat} {h : Ixgbe.Handler σ D} (s : Ixgbe.St σ D) (hpc : ∀ fc len, s.pc ≠ .handle fc len) :
    (agentStep outs h s).nf = s.nf := by
  unfold agentStep
  cases hp : s.pc with
  | handle fc len => exact absurd hp (hpc fc len)
  | _ => dsimp only <;> (repeat' split) <;> rfl

theorem card_setNf {outs : Nat} {h : Ixgbe.Handler τ D} {s t : Ixgbe.St σ D} (x : τ) (hc : Card outs s t) :
    Ixgbe.Step outs h (setNf s x) (setNf t x) := by
  cases hc with
  | fill d h1 => exact .fill (setNf s x) d h1
  | complete m h1 h2 => exact .complete (setNf s x) m h1 h2
  | send n h1 h2 => exact .send (setNf s x) n h1 h2
  | writeBack n h1 => exact .writeBack (setNf s x) n h1

/-! ### The invariant -/

/-- The lengths that the handler chooses fit the descriptor. -/
def Bounded (n : Nat) (h : Handler σ D) : Prop := ∀ i t, i < n → Ixgbe.Bounded (n - 1) (h i t)

/-- What is true of the machine after the handler has been called as in `calls`. -/
structure Inv (n : Nat) (h : Handler σ D) (nf0 : σ) (now0 : Nat) (buf : Nat → Nat → D) (m : St σ D) (calls : List (Call D)) :
    Prop where
  nf : m.nf = after h nf0 calls
  turn : m.turn < n
  devices : ∀ c ∈ calls, c.device < n
  lens : ∀ c ∈ calls, c.len < 2 ^ 16
  pc : ∀ i fc len, (m.agents i).pc = .handle fc len → len < 2 ^ 16
  now : ∀ c ∈ calls, now0 ≤ c.time ∧ c.time ≤ m.now
  now0 : now0 ≤ m.now
  order : calls.Pairwise fun a b => a.time ≤ b.time
  agents : ∀ i rest, Ixgbe.Steps (n - 1) oracle (Ixgbe.start ⟨resultsOf h nf0 calls i ++ rest, []⟩ (buf i))
    (setNf (m.agents i) ⟨rest, (ofDevice i calls).map fun c => (c.data, c.len, fun _ => 0)⟩)

theorem inv_start {n : Nat} (hn : 0 < n) (h : Handler σ D) (nf0 : σ) (now0 : Nat) (buf : Nat → Nat → D) :
    Inv n h nf0 now0 buf (start nf0 now0 buf) [] where
  nf := rfl
  turn := hn
  devices := by simp
  lens := by simp
  pc := by intro i fc len h; simp [start, Ixgbe.start] at h
  now := by simp
  now0 := Nat.le_refl _
  order := List.Pairwise.nil
  agents := fun i rest => Ixgbe.Steps.refl

theorem lenOf_lt (m : BitVec 64) : lenOf m < 2 ^ 16 := Nat.mod_lt _ (by decide)

theorem agentStep_pc {outs : Nat} {h : Ixgbe.Handler σ D} (s : Ixgbe.St σ D) {fc len : Nat}
    (hp : (agentStep outs h s).pc = .handle fc len) : len < 2 ^ 16 := by
  revert hp
  unfold agentStep
  cases s.pc <;> dsimp only <;> (repeat' split) <;> intro hp <;> cases hp
  exact lenOf_lt _

theorem card_pc {outs : Nat} {s t : Ixgbe.St σ D} (hc : Card outs s t) : t.pc = s.pc := by cases hc <;> rfl

/-- At a call, the array of lengths is zero and the packet is the next one received. -/
theorem call_args {n : Nat} (hn : 2 ≤ n) {s : Ixgbe.St Unit D} {x : Told D} {b : Nat → D} {fc len : Nat}
    {seen : List (D × Nat × (Nat → Nat))}
    (hs : Ixgbe.Steps (n - 1) oracle (Ixgbe.start x b) (setNf s ⟨[], seen⟩)) (hx : x.seen = [])
    (hpc : s.pc = .handle fc len) : s.lengths = (fun _ => 0) ∧
      ∃ k, seen ++ [(s.buf s.pd, len, fun _ => 0)] = (s.received.take k).map fun p => (p.1, p.2, fun _ => 0) := by
  have h1 := hs.step (.agent _)
  obtain ⟨k, hk, h2⟩ := Props.C54_state (by omega) (oracle_bounded _) h1
  have e : (agentStep (n - 1) oracle (setNf s ⟨[], seen⟩)).nf = ⟨[], seen ++ [(s.buf s.pd, len, s.lengths)]⟩ := by
    unfold agentStep
    simp only [setNf, hpc, oracle]
  have er : (agentStep (n - 1) oracle (setNf s ⟨[], seen⟩)).received = s.received := (Props.agent_frame _).1
  rw [e, er] at h2
  have h3 := congrArg Told.seen h2
  rw [oracle_seen, hx] at h3
  simp only [List.nil_append] at h3
  have hl : (s.buf s.pd, len, s.lengths) ∈ (s.received.take k).map fun p => (p.1, p.2, fun _ => 0) := by
    rw [← h3]; simp
  obtain ⟨p, _, hp⟩ := List.mem_map.mp hl
  simp only [Prod.mk.injEq] at hp
  have hz := hp.2.2.symm
  exact ⟨hz, k, by rw [← h3, hz]⟩

theorem ofDevice_append (i : Nat) (cs : List (Call D)) (c : Call D) :
    ofDevice i (cs ++ [c]) = if c.device = i then ofDevice i cs ++ [c] else ofDevice i cs := by
  unfold ofDevice
  split <;> simp_all

theorem resultsOf_append (h : Handler σ D) (nf : σ) (cs : List (Call D)) (c : Call D) (i : Nat) :
    resultsOf h nf (cs ++ [c]) i = if c.device = i then
      resultsOf h nf cs i ++ [(h c.device c.time (after h nf cs) c.data c.len fun _ => 0).2] else resultsOf h nf cs i := by
  unfold resultsOf
  rw [results_append]
  split <;> simp_all

theorem inv_run {n : Nat} (hn : 2 ≤ n) {h : Handler σ D} (hb : Bounded n h) {nf0 : σ} {now0 : Nat} {buf : Nat → Nat → D}
    {m : St σ D} {calls : List (Call D)} (inv : Inv n h nf0 now0 buf m calls) :
    (∃ fc len, (m.agents m.turn).pc = .handle fc len ∧ Inv n h nf0 now0 buf (runStep n h m)
      (calls ++ [⟨m.turn, m.now, (m.agents m.turn).buf (m.agents m.turn).pd, len⟩])) ∨
    ((∀ fc len, (m.agents m.turn).pc ≠ .handle fc len) ∧ Inv n h nf0 now0 buf (runStep n h m) calls) := by
  by_cases hpc : ∃ fc len, (m.agents m.turn).pc = .handle fc len
  · obtain ⟨fc, len, hpc⟩ := hpc
    obtain ⟨hz, -⟩ := call_args hn (inv.agents m.turn []) rfl hpc
    have hlen := inv.pc _ _ _ hpc
    have hbd := hb m.turn m.now inv.turn m.nf ((m.agents m.turn).buf (m.agents m.turn).pd) len
    have e : agentStep (n - 1) (h m.turn m.now) (setNf (m.agents m.turn) m.nf) =
        setNf { m.agents m.turn with
          buf := upd (m.agents m.turn).buf (m.agents m.turn).pd
            (h m.turn m.now m.nf ((m.agents m.turn).buf (m.agents m.turn).pd) len fun _ => 0).2.1
          lengths := fun j => if j < n - 1 then
            (h m.turn m.now m.nf ((m.agents m.turn).buf (m.agents m.turn).pd) len fun _ => 0).2.2 j else 0
          pc := .writeDesc fc 0 ((m.agents m.turn).pd &&& (recyclePeriod - 1) == recyclePeriod - 1) }
          (h m.turn m.now m.nf ((m.agents m.turn).buf (m.agents m.turn).pd) len fun _ => 0).1 := by
      unfold agentStep
      simp only [setNf, hpc, hz]
    refine .inl ⟨fc, len, hpc, ?_⟩
    unfold runStep
    rw [e]
    refine { nf := ?_, turn := ?_, devices := ?_, lens := ?_, pc := ?_, now := ?_, now0 := inv.now0, order := ?_, agents := ?_ }
    · rw [after_append, ← inv.nf]; rfl
    · exact inv.turn
    · intro c hc
      rcases List.mem_append.mp hc with hc | hc
      · exact inv.devices c hc
      · rw [List.mem_singleton.mp hc]; exact inv.turn
    · intro c hc
      rcases List.mem_append.mp hc with hc | hc
      · exact inv.lens c hc
      · rw [List.mem_singleton.mp hc]; exact hlen
    · intro j fc' len' hp
      by_cases hj : j = m.turn
      · subst hj
        simp only [upd_same] at hp
        cases hp
      · simp only [upd_other _ _ _ _ hj] at hp
        exact inv.pc _ _ _ hp
    · intro c hc
      rcases List.mem_append.mp hc with hc | hc
      · exact inv.now c hc
      · rw [List.mem_singleton.mp hc]; exact ⟨inv.now0, Nat.le_refl _⟩
    · rw [List.pairwise_append]
      refine ⟨inv.order, List.pairwise_singleton _ _, fun a ha b hb => ?_⟩
      rw [List.mem_singleton.mp hb]
      exact (inv.now a ha).2
    · intro j rest
      by_cases hj : j = m.turn
      · subst hj
        simp only [upd_same]
        rw [resultsOf_append, if_pos rfl, ofDevice_append, if_pos rfl, List.append_assoc, List.map_append]
        have := (inv.agents m.turn ((h m.turn m.now (after h nf0 calls)
          ((m.agents m.turn).buf (m.agents m.turn).pd) len fun _ => 0).2 :: rest)).step (.agent _)
        refine cast ?_ this
        congr 1
        unfold agentStep
        simp only [setNf, hpc, hz, oracle]
        congr 1
        · rw [inv.nf]
        · funext i
          split
          · rename_i hi
            have := hbd i hlen hi
            rw [inv.nf] at this ⊢
            unfold clamp
            rw [if_pos this]
          · rfl
      · simp only [upd_other _ _ _ _ hj]
        rw [resultsOf_append, if_neg (Ne.symm hj), ofDevice_append, if_neg (Ne.symm hj)]
        exact inv.agents j rest
  · have hpc' : ∀ fc len, (m.agents m.turn).pc ≠ .handle fc len := fun fc len h => hpc ⟨fc, len, h⟩
    refine .inr ⟨hpc', ?_⟩
    unfold runStep
    refine { nf := ?_, turn := ?_, devices := inv.devices, lens := inv.lens, pc := ?_, now := inv.now, now0 := inv.now0,
             order := inv.order, agents := ?_ }
    · show (agentStep _ _ _).nf = _
      rw [agentStep_nf (setNf (m.agents m.turn) m.nf) hpc']
      exact inv.nf
    · dsimp only
      split
      · exact Nat.mod_lt _ (by omega)
      · exact inv.turn
    · intro j fc' len' hp
      by_cases hj : j = m.turn
      · subst hj
        simp only [upd_same] at hp
        exact agentStep_pc (outs := n - 1) (h := h m.turn m.now) (setNf (m.agents m.turn) m.nf) hp
      · simp only [upd_other _ _ _ _ hj] at hp
        exact inv.pc _ _ _ hp
    · intro j rest
      by_cases hj : j = m.turn
      · subst hj
        simp only [upd_same]
        have := (inv.agents m.turn rest).step (.agent _)
        rw [agentStep_setNf (h := h m.turn m.now) (m.agents m.turn) m.nf _ hpc'] at this
        exact this
      · simp only [upd_other _ _ _ _ hj]
        exact inv.agents j rest

theorem inv_step {n : Nat} (hn : 2 ≤ n) {h : Handler σ D} (hb : Bounded n h) {nf0 : σ} {now0 : Nat} {buf : Nat → Nat → D}
    {m m' : St σ D} {calls : List (Call D)} (inv : Inv n h nf0 now0 buf m calls) (hs : Step n h m m') :
    ∃ more, Inv n h nf0 now0 buf m' (calls ++ more) := by
  cases hs with
  | tick t ht =>
    refine ⟨[], ?_⟩
    rw [List.append_nil]
    exact { nf := inv.nf, turn := inv.turn, devices := inv.devices, lens := inv.lens, pc := inv.pc,
            now := fun c hc => ⟨(inv.now c hc).1, Nat.le_trans (inv.now c hc).2 ht⟩,
            now0 := Nat.le_trans inv.now0 ht, order := inv.order, agents := inv.agents }
  | card i s hi hc =>
    refine ⟨[], ?_⟩
    rw [List.append_nil]
    refine { nf := inv.nf, turn := inv.turn, devices := inv.devices, lens := inv.lens, pc := ?_, now := inv.now,
             now0 := inv.now0, order := inv.order, agents := ?_ }
    · intro j fc len hp
      by_cases hj : j = i
      · subst hj
        simp only [upd_same] at hp
        rw [card_pc hc] at hp
        exact inv.pc _ _ _ hp
      · simp only [upd_other _ _ _ _ hj] at hp
        exact inv.pc _ _ _ hp
    · intro j rest
      by_cases hj : j = i
      · subst hj
        simp only [upd_same]
        exact (inv.agents j rest).step (card_setNf _ hc)
      · simp only [upd_other _ _ _ _ hj]
        exact inv.agents j rest
  | run =>
    rcases inv_run hn hb inv with ⟨_, _, _, h1⟩ | ⟨_, h1⟩
    · exact ⟨_, h1⟩
    · exact ⟨[], by rw [List.append_nil]; exact h1⟩

theorem inv_steps {n : Nat} (hn : 2 ≤ n) {h : Handler σ D} (hb : Bounded n h) {nf0 : σ} {now0 : Nat} {buf : Nat → Nat → D}
    {m : St σ D} (hs : Steps n h (start nf0 now0 buf) m) : ∃ calls, Inv n h nf0 now0 buf m calls := by
  induction hs with
  | refl => exact ⟨[], inv_start (by omega) h nf0 now0 buf⟩
  | step _ h1 ih =>
    obtain ⟨calls, inv⟩ := ih
    obtain ⟨more, inv'⟩ := inv_step hn hb inv h1
    exact ⟨_, inv'⟩

/-! ### What follows for one agent -/

theorem inv_received {n : Nat} (hn : 2 ≤ n) {h : Handler σ D} {nf0 : σ} {now0 : Nat} {buf : Nat → Nat → D}
    {m : St σ D} {calls : List (Call D)} (inv : Inv n h nf0 now0 buf m calls) (i : Nat) :
    (ofDevice i calls).map (fun c => (c.data, c.len)) <+: (m.agents i).received := by
  obtain ⟨k, hk, h2⟩ := Props.C54_state (by omega) (oracle_bounded _) (inv.agents i [])
  have h3 := congrArg Told.seen h2
  rw [oracle_seen] at h3
  simp only [setNf, List.nil_append] at h3
  have h4 := congrArg (List.map fun x : D × Nat × (Nat → Nat) => (x.1, x.2.1)) h3
  simp only [List.map_map] at h4
  have e1 : ((fun x : D × Nat × (Nat → Nat) => (x.1, x.2.1)) ∘ fun c : Call D => (c.data, c.len, fun _ => 0)) =
    fun c => (c.data, c.len) := rfl
  have e2 : ((fun x : D × Nat × (Nat → Nat) => (x.1, x.2.1)) ∘ fun p : D × Nat => (p.1, p.2, fun _ => 0)) = id := rfl
  rw [e1, e2, List.map_id] at h4
  rw [h4]
  exact List.take_prefix _ _

theorem results_bounded {n : Nat} {h : Handler σ D} (hb : Bounded n h) (nf : σ) (cs : List (Call D))
    (hd : ∀ c ∈ cs, c.device < n ∧ c.len < 2 ^ 16) : ∀ r ∈ results h nf cs, ∀ j < n - 1, r.2.2 j < 2 ^ 16 := by
  induction cs generalizing nf with
  | nil => simp [results]
  | cons c cs ih =>
    intro r hr
    simp only [results, List.mem_cons] at hr
    rcases hr with rfl | hr
    · intro j hj
      have := hd c (by simp)
      exact hb c.device c.time this.1 nf c.data c.len j this.2 hj
    · exact ih _ (fun c hc => hd c (by simp [hc])) r hr

theorem inv_sent {n : Nat} {h : Handler σ D} (hb : Bounded n h) {nf0 : σ} {now0 : Nat} {buf : Nat → Nat → D}
    {m : St σ D} {calls : List (Call D)} (inv : Inv n h nf0 now0 buf m calls) (i j : Nat) (hj : j < n - 1) :
    (m.agents i).sent j <+: (resultsOf h nf0 calls i).map fun o => (o.1, o.2 j) := by
  have key : ∀ rest, ∃ k ≤ (m.agents i).received.length, (m.agents i).sent j =
      (handleAll oracle ⟨resultsOf h nf0 calls i ++ rest, []⟩ ((m.agents i).received.take k)).2.map fun o => (o.1, o.2 j) :=
    fun rest => Props.C54_exactly_once (by omega) (oracle_bounded _) (inv.agents i rest) j hj
  have hlen : ∀ {x : Told D} {k : Nat}, k ≤ (m.agents i).received.length →
      ((handleAll oracle x ((m.agents i).received.take k)).2.map fun o => (o.1, o.2 j)).length = k := by
    intro x k hk
    rw [List.length_map, handleAll_length, List.length_take]; omega
  have hk : ((m.agents i).sent j).length ≤ (resultsOf h nf0 calls i).length := by
    by_contra hc
    have hc : (resultsOf h nf0 calls i).length < ((m.agents i).sent j).length := by omega
    have d := (((m.agents i).sent j)[(resultsOf h nf0 calls i).length]).1
    have both : ∀ v : Nat, v < 2 ^ 16 → ((m.agents i).sent j)[(resultsOf h nf0 calls i).length]? = some (d, v) := by
      intro v hv
      obtain ⟨k, hk, e⟩ := key [(d, fun _ => v)]
      have hkl : k = ((m.agents i).sent j).length := by rw [e, hlen hk]
      rw [e, List.getElem?_map, oracle_results _ _ _ (by rw [List.length_take]; omega) (d, fun _ => v) (by simp)]
      simp [clamp, hv]
    have h0 := both 0 (by omega)
    have h1 := both 1 (by omega)
    rw [h0] at h1
    simp at h1
  obtain ⟨k, hkr, e⟩ := key []
  have hkl : k = ((m.agents i).sent j).length := by rw [e, hlen hkr]
  rw [List.prefix_iff_eq_take]
  apply List.ext_getElem?
  intro x
  rw [List.getElem?_take, List.getElem?_map]
  by_cases hx : x < ((m.agents i).sent j).length
  · rw [if_pos hx]
    have hx' : x < (resultsOf h nf0 calls i).length := by omega
    rw [e, List.getElem?_map, oracle_results _ _ _ (by rw [List.length_take]; omega) ((resultsOf h nf0 calls i)[x])
      (by simp [hx']), List.getElem?_eq_getElem hx']
    have hm : (resultsOf h nf0 calls i)[x] ∈ resultsOf h nf0 calls i := List.getElem_mem hx'
    obtain ⟨r, hr, hre⟩ := List.mem_map.mp hm
    have := results_bounded hb nf0 calls (fun c hc => ⟨inv.devices c hc, inv.lens c hc⟩) r (List.mem_filter.mp hr).1 j hj
    rw [hre] at this
    simp only [Option.map_some, clamp]
    rw [if_pos this]
  · rw [if_neg hx]
    exact List.getElem?_eq_none (by omega)

/-- When the agent has seen that there is nothing more and output `j` has sent everything, all
packets received have been handled and sent. -/
theorem inv_idle {n : Nat} (hn : 2 ≤ n) {h : Handler σ D} (hb : Bounded n h) {nf0 : σ} {now0 : Nat} {buf : Nat → Nat → D}
    {m : St σ D} {calls : List (Call D)} (inv : Inv n h nf0 now0 buf m calls) (i j : Nat) (hj : j < n - 1)
    (hpc : (m.agents i).pc = .poll 0) (hd : done ((m.agents i).ring 0 (m.agents i).pd) = false)
    (ht : (m.agents i).tdh j = (m.agents i).tdt j) :
    (ofDevice i calls).map (fun c => (c.data, c.len)) = (m.agents i).received ∧
    (m.agents i).sent j = (resultsOf h nf0 calls i).map fun o => (o.1, o.2 j) := by
  have h1 := Props.C54_nothing_lost (by omega) (oracle_bounded _) (inv.agents i []) hpc hd j hj ht
  have h2 := inv_received hn inv i
  have h3 := inv_sent hb inv i j hj
  have e1 : ((m.agents i).sent j).length = (m.agents i).received.length := by
    have := congrArg List.length h1
    rw [List.length_map, handleAll_length] at this
    exact this
  have e2 := resultsOf_length h nf0 calls i
  have l2 := h2.length_le
  have l3 := h3.length_le
  rw [List.length_map] at l2 l3
  refine ⟨h2.eq_of_length (by rw [List.length_map]; omega), h3.eq_of_length (by rw [List.length_map]; omega)⟩

/-! ### The processor on its own -/

/-- Steps of the processor alone. -/
inductive Alone (n : Nat) (h : Handler σ D) (m : St σ D) : St σ D → Prop
  | refl : Alone n h m m
  | step {t : St σ D} : Alone n h m t → Alone n h m (runStep n h t)

theorem Alone.trans {n : Nat} {h : Handler σ D} {m t u : St σ D} (h1 : Alone n h m t) (h2 : Alone n h t u) : Alone n h m u := by
  induction h2 with
  | refl => exact h1
  | step _ ih => exact ih.step

theorem Alone.steps {n : Nat} {h : Handler σ D} {m t : St σ D} (h1 : Alone n h m t) : Steps n h m t := by
  induction h1 with
  | refl => exact .refl
  | step _ ih => exact ih.step (.run _)

/-- How far the agent is from calling the handler or waiting. -/
def rank (outs : Nat) : Pc → Nat
  | .handle .. => 0
  | .poll 0 => 1
  | .flush n => 2 + (outs - n)
  | .poll _ => outs + 3
  | .writeTail .. => outs + 4
  | .readHead _ n _ _ => outs + 5 + (outs - n)
  | .advance .. => 2 * outs + 6
  | .writeDesc _ n _ => 2 * outs + 7 + (outs - n)

theorem rank_poll {outs fc : Nat} (h : fc ≠ 0) : rank outs (.poll fc) = outs + 3 := by
  cases fc with
  | zero => exact absurd rfl h
  | succ => rfl

theorem rank_agentStep {outs : Nat} {h : Ixgbe.Handler σ D} (s : Ixgbe.St σ D) (hi : ¬ Props.Idle s)
    (hpc : ∀ fc len, s.pc ≠ .handle fc len) : rank outs (agentStep outs h s).pc < rank outs s.pc := by
  unfold agentStep
  cases hp : s.pc with
  | handle fc len => exact absurd hp (hpc fc len)
  | poll fc =>
    dsimp only
    have h1 : 1 ≤ rank outs (.poll fc) := by
      by_cases h0 : fc = 0
      · subst h0; exact Nat.le_refl _
      · rw [rank_poll h0]; omega
    split
    · split
      · exact h1
      · split
        · rename_i h0
          rw [rank_poll h0]; simp only [rank]; omega
        · rename_i hd h0
          have : fc = 0 := by omega
          subst this
          exact absurd ⟨hp, by simpa using hd⟩ hi
    · rename_i hf
      have h0 : fc ≠ 0 := by rintro rfl; exact hf (by decide)
      rw [rank_poll h0]; simp only [rank]; omega
  | writeDesc fc n rs => dsimp only; split <;> simp only [rank] <;> omega
  | advance fc rs =>
    dsimp only
    split
    · simp only [rank]; omega
    · rw [rank_poll (by omega)]; simp only [rank]; omega
  | readHead fc n e d =>
    dsimp only
    split
    · split <;> simp only [rank] <;> omega
    · simp only [rank]; omega
  | writeTail fc e => dsimp only; rw [rank_poll (by omega)]; simp only [rank]; omega
  | flush n => dsimp only; split <;> simp only [rank] <;> omega

/-- Work left for the agent of a device. -/
def work (n : Nat) (m : St σ D) (calls : List (Call D)) (i : Nat) : Nat :=
  ((m.agents i).received.length - (ofDevice i calls).length) * (3 * n + 10) + rank (n - 1) (m.agents i).pc

/-- Work left for the agents of the devices below `k`. -/
def total (n : Nat) (m : St σ D) (calls : List (Call D)) : Nat → Nat
  | 0 => 0
  | k + 1 => total n m calls k + work n m calls k

theorem total_lt {n : Nat} {m m' : St σ D} {calls calls' : List (Call D)} {j : Nat}
    (hw : work n m' calls' j < work n m calls j) (ho : ∀ i, i ≠ j → work n m' calls' i = work n m calls i) (k : Nat) :
    total n m' calls' k ≤ total n m calls k ∧ (j < k → total n m' calls' k < total n m calls k) := by
  induction k with
  | zero => exact ⟨Nat.le_refl _, fun h => by omega⟩
  | succ k ih =>
    obtain ⟨h1, h2⟩ := ih
    simp only [total]
    by_cases hk : k = j
    · subst hk; exact ⟨by omega, fun _ => by omega⟩
    · have := ho k hk
      exact ⟨by omega, fun h => by have := h2 (by omega); omega⟩

theorem runStep_other {n : Nat} {h : Handler σ D} {m : St σ D} {i : Nat} (hi : i ≠ m.turn) :
    (runStep n h m).agents i = m.agents i := upd_other _ _ _ _ hi

theorem runStep_turn {n : Nat} {h : Handler σ D} {m : St σ D} :
    (runStep n h m).agents m.turn = setNf (agentStep (n - 1) (h m.turn m.now) (setNf (m.agents m.turn) m.nf)) () :=
  upd_same _ _ _

theorem runStep_received {n : Nat} {h : Handler σ D} {m : St σ D} (i : Nat) :
    ((runStep n h m).agents i).received = (m.agents i).received := by
  by_cases hi : i = m.turn
  · subst hi
    rw [runStep_turn]
    exact (Props.agent_frame (outs := n - 1) (h := h m.turn m.now) (setNf (m.agents m.turn) m.nf)).1
  · rw [runStep_other hi]

theorem alone_received {n : Nat} {h : Handler σ D} {m t : St σ D} (ha : Alone n h m t) (i : Nat) :
    (t.agents i).received = (m.agents i).received := by
  induction ha with
  | refl => rfl
  | step _ ih => rw [runStep_received, ih]

/-- A step of an agent that does not wait is progress. -/
theorem progress {n : Nat} (hn : 2 ≤ n) {h : Handler σ D} (hb : Bounded n h) {nf0 : σ} {now0 : Nat} {buf : Nat → Nat → D}
    {m : St σ D} {calls : List (Call D)} (inv : Inv n h nf0 now0 buf m calls) (hi : ¬ Props.Idle (m.agents m.turn)) :
    ∃ calls', Inv n h nf0 now0 buf (runStep n h m) calls' ∧ total n (runStep n h m) calls' n < total n m calls n := by
  rcases inv_run hn hb inv with ⟨fc, len, hpc, h1⟩ | ⟨hpc, h1⟩
  · refine ⟨_, h1, (total_lt (j := m.turn) ?_ ?_ n).2 inv.turn⟩
    · obtain ⟨-, k, hk⟩ := call_args hn (inv.agents m.turn []) rfl hpc
      have := congrArg List.length hk
      simp only [List.length_append, List.length_map, List.length_take, List.length_singleton] at this
      unfold work
      rw [runStep_received, ofDevice_append, if_pos rfl, List.length_append, List.length_singleton]
      have e : rank (n - 1) ((runStep n h m).agents m.turn).pc = 2 * (n - 1) + 7 + (n - 1) := by
        rw [runStep_turn]
        unfold agentStep
        simp only [setNf, hpc, rank]; omega
      rw [e, hpc]
      have e2 : (m.agents m.turn).received.length - (ofDevice m.turn calls).length =
        (m.agents m.turn).received.length - ((ofDevice m.turn calls).length + 1) + 1 := by omega
      rw [e2, Nat.add_mul]
      simp only [rank]; omega
    · intro i hi
      unfold work
      rw [runStep_received, ofDevice_append, if_neg (Ne.symm hi), runStep_other hi]
  · refine ⟨_, h1, (total_lt (j := m.turn) ?_ ?_ n).2 inv.turn⟩
    · unfold work
      rw [runStep_received, runStep_turn]
      have := rank_agentStep (outs := n - 1) (h := h m.turn m.now) (setNf (m.agents m.turn) m.nf) hi hpc
      have e : (setNf (agentStep (n - 1) (h m.turn m.now) (setNf (m.agents m.turn) m.nf)) ()).pc =
        (agentStep (n - 1) (h m.turn m.now) (setNf (m.agents m.turn) m.nf)).pc := rfl
      have e2 : (setNf (m.agents m.turn) m.nf).pc = (m.agents m.turn).pc := rfl
      rw [e]
      rw [e2] at this
      omega
    · intro i hi
      unfold work
      rw [runStep_received, runStep_other hi]

/-- A step of an agent that waits only passes the turn on. -/
theorem pass {n : Nat} {h : Handler σ D} {m : St σ D} (hi : Props.Idle (m.agents m.turn)) :
    runStep n h m = { m with turn := (m.turn + 1) % n } := by
  obtain ⟨h1, h2⟩ := hi
  have e : agentStep (n - 1) (h m.turn m.now) (setNf (m.agents m.turn) m.nf) = setNf (m.agents m.turn) m.nf := by
    unfold agentStep
    simp only [setNf, h1, h2]
    rfl
  unfold runStep
  rw [e]
  dsimp only
  have : upd m.agents m.turn (setNf (setNf (m.agents m.turn) m.nf) ()) = m.agents := by
    funext i
    unfold upd
    split
    · rename_i hi; subst hi; rfl
    · rfl
  rw [this]
  have : atStart (setNf (m.agents m.turn) m.nf).pc = true := by
    show atStart (m.agents m.turn).pc = true
    rw [h1]; rfl
  rw [this]
  rfl

/-- The turn gets to every agent that does not wait. -/
theorem reaches {n : Nat} {h : Handler σ D} {j : Nat} (hj : j < n) (k : Nat) : ∀ m : St σ D, m.turn < n →
    (j + n - m.turn) % n = k → ¬ Props.Idle (m.agents j) →
    ∃ m', Alone n h m m' ∧ (∃ t < n, m' = { m with turn := t }) ∧ ¬ Props.Idle (m'.agents m'.turn) := by
  induction k with
  | zero =>
    intro m ht hk hi
    have : m.turn = j := by
      by_cases h : j < m.turn
      · rw [Nat.mod_eq_of_lt (by omega)] at hk; omega
      · rw [Nat.mod_eq_sub_mod (by omega), Nat.mod_eq_of_lt (by omega)] at hk; omega
    exact ⟨m, .refl, ⟨m.turn, ht, rfl⟩, by rw [this]; exact hi⟩
  | succ k ih =>
    intro m ht hk hi
    by_cases hc : Props.Idle (m.agents m.turn)
    · have hp := pass (n := n) (h := h) hc
      obtain ⟨m', h1, ⟨t, ht', h2⟩, h3⟩ := ih (runStep n h m) (by rw [hp]; exact Nat.mod_lt _ (by omega)) (by
        rw [hp]
        show (j + n - (m.turn + 1) % n) % n = k
        by_cases hl : m.turn + 1 < n
        · rw [Nat.mod_eq_of_lt hl]
          by_cases h : j < m.turn
          · rw [Nat.mod_eq_of_lt (by omega)] at hk ⊢; omega
          · have : j ≠ m.turn := by
              rintro rfl
              rw [Nat.add_sub_cancel_left, Nat.mod_self] at hk; omega
            rw [Nat.mod_eq_sub_mod (by omega), Nat.mod_eq_of_lt (by omega)] at hk ⊢; omega
        · have e : m.turn + 1 = n := by omega
          rw [e, Nat.mod_self, Nat.sub_zero, Nat.add_mod_right, Nat.mod_eq_of_lt hj]
          have : j ≠ m.turn := by
            rintro rfl
            rw [Nat.add_sub_cancel_left, Nat.mod_self] at hk; omega
          rw [Nat.mod_eq_of_lt (by omega)] at hk; omega) (by rw [hp]; exact hi)
      refine ⟨m', (Alone.step .refl).trans h1, ⟨t, ht', ?_⟩, h3⟩
      rw [h2, hp]
    · exact ⟨m, .refl, ⟨m.turn, ht, rfl⟩, hc⟩

theorem quiesces {n : Nat} (hn : 2 ≤ n) {h : Handler σ D} (hb : Bounded n h) {nf0 : σ} {now0 : Nat} {buf : Nat → Nat → D}
    (k : Nat) : ∀ (m : St σ D) (calls : List (Call D)), Inv n h nf0 now0 buf m calls → total n m calls n < k →
      ∃ m', Alone n h m m' ∧ ∀ i < n, Props.Idle (m'.agents i) := by
  induction k with
  | zero => intro m calls _ hk; omega
  | succ k ih =>
    intro m calls inv hk
    by_cases hall : ∀ i < n, Props.Idle (m.agents i)
    · exact ⟨m, .refl, hall⟩
    · simp only [not_forall] at hall
      obtain ⟨j, hj, hi⟩ := hall
      obtain ⟨m1, h1, ⟨t, ht, h2⟩, h3⟩ := reaches (h := h) hj _ m inv.turn rfl hi
      have inv1 : Inv n h nf0 now0 buf m1 calls ∧ total n m1 calls n = total n m calls n := by
        subst h2
        refine ⟨{ inv with turn := ht }, ?_⟩
        have : ∀ x, total n { m with turn := t } calls x = total n m calls x := by
          intro x
          induction x with
          | zero => rfl
          | succ x ih => simp only [total, ih]; rfl
        exact this n
      obtain ⟨calls', inv2, hlt⟩ := progress hn hb inv1.1 h3
      obtain ⟨m', h4, h5⟩ := ih _ calls' inv2 (by omega)
      exact ⟨m', h1.trans ((Alone.step .refl).trans h4), h5⟩

theorem steps_trans {n : Nat} {h : Handler σ D} {m t u : St σ D} (h1 : Steps n h m t) (h2 : Steps n h t u) : Steps n h m u := by
  induction h2 with
  | refl => exact h1
  | step _ h3 ih => exact ih.step h3

/-- An agent that waits has handled everything. -/
theorem inv_waits {n : Nat} (hn : 2 ≤ n) {h : Handler σ D} {nf0 : σ} {now0 : Nat} {buf : Nat → Nat → D}
    {m : St σ D} {calls : List (Call D)} (inv : Inv n h nf0 now0 buf m calls) (i : Nat) (hi : Props.Idle (m.agents i)) :
    (ofDevice i calls).map (fun c => (c.data, c.len)) = (m.agents i).received := by
  obtain ⟨g, hg⟩ := Ixgbe.inv_steps (by omega) (oracle_bounded (n - 1))
    (Ixgbe.inv_start (n - 1) oracle _ _) (inv.agents i [])
  have hc : Ixgbe.current (setNf (m.agents i)
      (⟨[], (ofDevice i calls).map fun c => (c.data, c.len, fun _ => 0)⟩ : Told D)).pc = 0 := by
    show Ixgbe.current (m.agents i).pc = 0
    rw [hi.1]; rfl
  have hP : ¬ g.P < (m.agents i).received.length := by
    intro hlt
    have := (hg.done_iff hc).2 hlt
    rw [show (setNf (m.agents i) (⟨[], (ofDevice i calls).map fun c => (c.data, c.len, fun _ => 0)⟩ : Told D)).ring 0
      (setNf (m.agents i) (⟨[], (ofDevice i calls).map fun c => (c.data, c.len, fun _ => 0)⟩ : Told D)).pd =
      (m.agents i).ring 0 (m.agents i).pd from rfl, hi.2] at this
    cases this
  have h1 := congrArg (fun x => x.seen.length) hg.nf
  rw [hc] at h1
  simp only [oracle_seen] at h1
  simp only [setNf, List.nil_append, List.length_map, List.length_take] at h1
  exact (inv_received hn inv i).eq_of_length (by rw [List.length_map]; omega)

end Verif.Machine
