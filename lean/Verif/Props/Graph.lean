/- The graph of the exploration (C95). -/
import Verif.Tool.Graph

set_option autoImplicit false

namespace Verif.Props.GraphProofs
open Verif.Tool.Graph

/-- What holds of the graph throughout an exploration. -/
structure Inv (root : Nat) (e : Expl) : Prop where
  rootLt : root < e.graph.counter
  lt : ∀ x ∈ e.graph.edges, x.src < x.dst ∧ x.dst < e.graph.counter
  noRoot : ∀ x ∈ e.graph.edges, x.dst ≠ root
  nodup : e.live.Nodup
  liveLt : ∀ l ∈ e.live, l < e.graph.counter
  liveOut : ∀ l ∈ e.live, ∀ x ∈ e.graph.edges, x.src ≠ l
  liveKnown : ∀ l ∈ e.live, l = root ∨ ∃ x ∈ e.graph.edges, x.dst = l
  srcKnown : ∀ x ∈ e.graph.edges, x.src = root ∨ ∃ y ∈ e.graph.edges, y.dst = x.src
  out1 : ∀ x ∈ e.graph.edges, e.graph.unlabelled x.src = true → e.graph.out x.src = [x]
  in1 : ∀ n y, e.graph.into n = [y] → e.graph.unlabelled y.src = false

theorem unlabelled_put (ns : List (Nat × String)) (id : Nat) (l : String) (n : Nat) :
    (!(put ns id l).any fun x => x.1 == n) = ((!ns.any fun x => x.1 == n) && !(id == n)) := by
  unfold put
  split
  · rename_i h
    induction ns with
    | nil => simp at h
    | cons a as ih =>
      simp only [List.any_cons, List.map_cons]
      by_cases ha : a.1 = id
      · simp only [ha, beq_self_eq_true, if_true]
        cases hq : (id == n) with
        | true => simp
        | false =>
          have hne : id ≠ n := by simpa using hq
          simp only [Bool.false_or, Bool.not_false, Bool.and_true]
          congr 1
          rw [List.any_map]
          congr 1
          funext x
          simp only [Function.comp]
          split
          · rename_i hx; simp only [beq_iff_eq] at hx; rw [hx, hq]
          · rfl
      · have : (as.any fun n => n.1 == id) = true := by simpa [ha] using h
        have := ih this
        have e : (a.1 == id) = false := by simpa using ha
        simp only [e, Bool.false_eq_true, if_false, Bool.not_or, this]
        cases (a.1 == n) <;> simp
  · rw [List.any_append]
    simp

theorem divergence_first (first : List Con) (rest : List (List Con)) (fuel i k : Nat) (h : divergence first rest fuel i = some k) :
    agreeAt first rest k = some false := by
  induction fuel generalizing i with
  | zero => simp [divergence] at h
  | succ f ih =>
    unfold divergence at h
    split at h
    · simp at h
    · rename_i h'; simp only [Option.some.injEq] at h; subst h; exact h'
    · exact ih _ h

theorem edgesTo_spec (orig count d : Nat) : ∀ (sts : List (Nat × List Con)) (n : Nat) (es : List Edge), edgesTo orig count d n sts = some es →
    es.map Edge.dst = sts.map (·.1) ∧ ∀ x ∈ es, x.src = orig := by
  intro sts
  induction sts with
  | nil => intro n es h; simp only [edgesTo, Option.some.injEq] at h; subst h; simp
  | cons s ss ih =>
    intro n es h
    unfold edgesTo at h
    split at h
    · simp at h
    · split at h
      · simp at h
      · rename_i es' he
        simp only [Option.some.injEq] at h
        subst h
        obtain ⟨h1, h2⟩ := ih _ _ he
        simp [h1]; exact h2

theorem number_ids (c : Nat) (news : List (List Con)) : (number c news).map (·.1) = List.range' c news.length := by
  induction news generalizing c with
  | nil => rfl
  | cons a as ih => simp [number, List.range'_succ, ih]

theorem number_length (c : Nat) (news : List (List Con)) : (number c news).length = news.length := by
  have := congrArg List.length (number_ids c news); simpa using this

theorem order_perm (d : Nat) (news : List (Nat × List Con)) : (order d news).Perm news := by
  unfold order
  split
  · split
    · split
      · exact List.Perm.swap _ _ _
      · exact .refl _
    · exact .refl _
  · exact .refl _

/-- A recorded step changes nothing, or adds edges from the state to new ones and labels it. -/
theorem recordStep_spec {g g' : Graph} {orig : Nat} {d : Desc} {time : String} {news : List (List Con)} {ids : List Nat}
    (h : recordStep g orig d time news = some (g', ids)) :
    (g' = g ∧ (ids = [] ∨ ids = [orig])) ∨
    (ids ≠ [] ∧ ids = List.range' g.counter ids.length ∧ g'.counter = g.counter + ids.length ∧
      g'.nodes = put g.nodes orig (nodeLabel d time) ∧
      ∃ es, g'.edges = g.edges ++ es ∧ (es.map Edge.dst).Perm ids ∧ ∀ x ∈ es, x.src = orig) := by
  unfold recordStep at h
  split at h
  · simp only [Option.some.injEq, Prod.mk.injEq] at h
    exact .inl ⟨h.1.symm, .inl h.2.symm⟩
  · split at h
    · simp only [Option.some.injEq, Prod.mk.injEq] at h
      obtain ⟨rfl, rfl⟩ := h
      exact .inr ⟨by simp, by simp, rfl, rfl, _, rfl, by simp, by simp⟩
    · simp only [Option.some.injEq, Prod.mk.injEq] at h
      exact .inl ⟨h.1.symm, .inr h.2.symm⟩
  · rename_i first rest _
    split at h
    · simp at h
    · rename_i k _
      dsimp only at h
      split at h
      · simp at h
      · rename_i es he
        simp only [Option.some.injEq, Prod.mk.injEq] at h
        obtain ⟨rfl, rfl⟩ := h
        obtain ⟨h1, h2⟩ := edgesTo_spec _ _ _ _ _ _ he
        refine .inr ⟨by simp [number], ?_, by simp, rfl, es, rfl, ?_, h2⟩
        · rw [number_ids]; simp
        · rw [h1]; exact (order_perm _ _).map _

theorem filter_nil {p : Edge → Bool} {l : List Edge} (h : ∀ x ∈ l, p x = false) : l.filter p = [] := by
  rw [List.filter_eq_nil_iff]; intro x hx; simp [h x hx]

theorem inv_start {counter root : Nat} (h : root < counter) : Inv root (start counter root) := by
  refine ⟨h, ?_, ?_, ?_, ?_, ?_, ?_, ?_, ?_, ?_⟩ <;> simp [start, Graph.into]
  exact h

theorem inv_label {root : Nat} {e : Expl} (h : Inv root e) (id : Nat) (label : String) :
    Inv root ⟨{ e.graph with nodes := put e.graph.nodes id label }, e.live⟩ := by
  refine ⟨h.rootLt, h.lt, h.noRoot, h.nodup, h.liveLt, h.liveOut, h.liveKnown, h.srcKnown, ?_, ?_⟩
  · intro x hx hu
    refine h.out1 x hx ?_
    have : (!(put e.graph.nodes id label).any fun y => y.1 == x.src) = true := hu
    rw [unlabelled_put, Bool.and_eq_true] at this
    exact this.1
  · intro n y hy
    have := h.in1 n y hy
    show (!(put e.graph.nodes id label).any fun z => z.1 == y.src) = false
    rw [unlabelled_put]
    unfold Graph.unlabelled at this
    rw [this]; rfl

theorem inv_step {root : Nat} {e : Expl} (h : Inv root e) {orig : Nat} (ho : orig ∈ e.live) {g' : Graph} {ids : List Nat} {label : String}
    {es : List Edge} (hne : ids ≠ []) (hids : ids = List.range' e.graph.counter ids.length)
    (hc : g'.counter = e.graph.counter + ids.length) (hn : g'.nodes = put e.graph.nodes orig label) (he : g'.edges = e.graph.edges ++ es)
    (hd : (es.map Edge.dst).Perm ids) (hs : ∀ x ∈ es, x.src = orig) : Inv root ⟨g', e.live.erase orig ++ ids⟩ := by
  have hmem : ∀ i, i ∈ ids → e.graph.counter ≤ i ∧ i < e.graph.counter + ids.length := by
    intro i hi; rw [hids] at hi; simpa using List.mem_range'_1.1 hi
  have hdst : ∀ x ∈ es, x.dst ∈ ids := fun x hx => hd.subset (List.mem_map_of_mem hx)
  have hol := h.liveLt _ ho
  have hlen : 0 < ids.length := List.length_pos_iff.2 hne
  have hu : ∀ n, g'.unlabelled n = (e.graph.unlabelled n && !(orig == n)) := by
    intro n; unfold Graph.unlabelled; rw [hn, unlabelled_put]
  refine ⟨?_, ?_, ?_, ?_, ?_, ?_, ?_, ?_, ?_, ?_⟩
  · show root < g'.counter; have := h.rootLt; omega
  · intro x hx
    show x.src < x.dst ∧ x.dst < g'.counter
    simp only [he, List.mem_append] at hx
    rcases hx with hx | hx
    · have := h.lt x hx; omega
    · have := hmem _ (hdst x hx); have := hs x hx; omega
  · intro x hx
    simp only [he, List.mem_append] at hx
    rcases hx with hx | hx
    · exact h.noRoot x hx
    · have := hmem _ (hdst x hx); have := h.rootLt; omega
  · show (e.live.erase orig ++ ids).Nodup
    rw [List.nodup_append]
    refine ⟨h.nodup.erase _, by rw [hids]; exact List.nodup_range', ?_⟩
    intro a ha b hb hab
    have := h.liveLt a (List.mem_of_mem_erase ha)
    have := hmem b hb
    omega
  · intro l hl
    show l < g'.counter
    simp only [List.mem_append] at hl
    rcases hl with hl | hl
    · have := h.liveLt l (List.mem_of_mem_erase hl); omega
    · have := hmem l hl; omega
  · intro l hl x hx
    simp only [List.mem_append] at hl
    simp only [he, List.mem_append] at hx
    rcases hl with hl | hl
    · rcases hx with hx | hx
      · exact h.liveOut l (List.mem_of_mem_erase hl) x hx
      · rw [hs x hx]; intro heq; subst heq; exact h.nodup.not_mem_erase hl
    · have := hmem l hl
      rcases hx with hx | hx
      · have := h.lt x hx; omega
      · have := hs x hx; omega
  · intro l hl
    simp only [List.mem_append] at hl
    simp only [he, List.mem_append]
    rcases hl with hl | hl
    · rcases h.liveKnown l (List.mem_of_mem_erase hl) with h' | ⟨x, hx, h'⟩
      · exact .inl h'
      · exact .inr ⟨x, .inl hx, h'⟩
    · obtain ⟨x, hx, h'⟩ := List.mem_map.1 (hd.symm.subset hl)
      exact .inr ⟨x, .inr hx, h'⟩
  · intro x hx
    simp only [he, List.mem_append] at hx ⊢
    have key : ∀ n, (n = root ∨ ∃ y ∈ e.graph.edges, y.dst = n) → n = root ∨ ∃ y, (y ∈ e.graph.edges ∨ y ∈ es) ∧ y.dst = n := by
      rintro n (h' | ⟨y, hy, h'⟩)
      · exact .inl h'
      · exact .inr ⟨y, .inl hy, h'⟩
    rcases hx with hx | hx
    · exact key _ (h.srcKnown x hx)
    · rw [hs x hx]; exact key _ (h.liveKnown _ ho)
  · intro x hx hux
    simp only [hu, Bool.and_eq_true, Bool.not_eq_true', beq_eq_false_iff_ne] at hux
    simp only [he, List.mem_append] at hx
    rcases hx with hx | hx
    · show (g'.edges.filter fun y => y.src == x.src) = [x]
      rw [he, List.filter_append, filter_nil (l := es), List.append_nil]
      · exact h.out1 x hx hux.1
      · intro y hy; rw [hs y hy]; simpa using hux.2
    · exact absurd (hs x hx).symm hux.2
  · intro n y hy
    show g'.unlabelled y.src = false
    have hy' : (g'.edges.filter fun x => x.dst == n) = [y] := hy
    rw [hu]
    have hmy : y ∈ g'.edges.filter fun x => x.dst == n := by rw [hy']; simp
    simp only [he, List.mem_filter, List.mem_append, beq_iff_eq] at hmy
    rcases hmy with ⟨hm | hm, hdn⟩
    · have h1 := h.lt y hm
      rw [he, List.filter_append, filter_nil (l := es), List.append_nil] at hy'
      · rw [h.in1 n y hy']; rfl
      · intro x hx
        have := hmem _ (hdst x hx)
        simp; omega
    · rw [hs y hm]; simp

theorem filter_ids (c : Nat) : ∀ (ids : List Nat), ids.Nodup → ∀ id ∈ ids,
    ((ids.map fun i => (⟨i, c, ""⟩ : Edge)).filter fun y => y.src == id) = [⟨id, c, ""⟩] := by
  intro ids
  induction ids with
  | nil => simp
  | cons a as ih =>
    intro hn id hid
    rw [List.nodup_cons] at hn
    rcases List.mem_cons.1 hid with rfl | hid
    · simp only [List.map_cons, List.filter_cons, beq_self_eq_true, if_true]
      rw [filter_nil]
      intro x hx
      obtain ⟨i, hi, rfl⟩ := List.mem_map.1 hx
      simp only [beq_eq_false_iff_ne]; rintro rfl; exact hn.1 hi
    · have : a ≠ id := by rintro rfl; exact hn.1 hid
      simp only [List.map_cons, List.filter_cons]
      rw [if_neg (by simpa using this)]
      exact ih hn.2 id hid

theorem inv_merge {root : Nat} {e : Expl} (h : Inv root e) {ids : List Nat} (h2 : 2 ≤ ids.length) (hnd : ids.Nodup) (hl : ∀ id ∈ ids, id ∈ e.live) :
    Inv root ⟨(recordMerge e.graph ids).1, e.live.filter (fun l => !ids.contains l) ++ [(recordMerge e.graph ids).2]⟩ := by
  have hin : ∀ x, x ∈ (recordMerge e.graph ids).1.edges ↔ x ∈ e.graph.edges ∨ ∃ i ∈ ids, x = ⟨i, e.graph.counter, ""⟩ := by
    intro x; simp only [recordMerge, List.mem_append, List.mem_map]
    constructor
    · rintro (h | ⟨i, h, rfl⟩)
      · exact .inl h
      · exact .inr ⟨i, h, rfl⟩
    · rintro (h | ⟨i, h, rfl⟩)
      · exact .inl h
      · exact .inr ⟨i, h, rfl⟩
  have hlive : ∀ l, l ∈ e.live.filter (fun l => !ids.contains l) ++ [(recordMerge e.graph ids).2] ↔ (l ∈ e.live ∧ l ∉ ids) ∨ l = e.graph.counter := by
    intro l; simp [recordMerge, List.mem_filter]
  refine ⟨?_, ?_, ?_, ?_, ?_, ?_, ?_, ?_, ?_, ?_⟩
  · show root < e.graph.counter + 1; have := h.rootLt; omega
  · intro x hx
    show x.src < x.dst ∧ x.dst < e.graph.counter + 1
    rcases (hin x).1 hx with hx | ⟨i, hi, rfl⟩
    · have := h.lt x hx; omega
    · have := h.liveLt i (hl i hi); simp; omega
  · intro x hx
    rcases (hin x).1 hx with hx | ⟨i, hi, rfl⟩
    · exact h.noRoot x hx
    · have := h.rootLt; simp; omega
  · show (e.live.filter (fun l => !ids.contains l) ++ [e.graph.counter]).Nodup
    rw [List.nodup_append]
    refine ⟨h.nodup.filter _, by simp, ?_⟩
    intro a ha b hb hab
    have := h.liveLt a (List.mem_filter.1 ha).1
    simp only [List.mem_singleton] at hb
    omega
  · intro l hl'
    show l < e.graph.counter + 1
    rcases (hlive l).1 hl' with ⟨h1, -⟩ | rfl
    · have := h.liveLt l h1; omega
    · omega
  · intro l hl' x hx
    rcases (hlive l).1 hl' with ⟨h1, h1'⟩ | rfl
    · rcases (hin x).1 hx with hx | ⟨i, hi, rfl⟩
      · exact h.liveOut l h1 x hx
      · rintro rfl; exact h1' hi
    · rcases (hin x).1 hx with hx | ⟨i, hi, rfl⟩
      · have := h.lt x hx; omega
      · have := h.liveLt i (hl i hi); simp; omega
  · intro l hl'
    rcases (hlive l).1 hl' with ⟨h1, -⟩ | rfl
    · rcases h.liveKnown l h1 with h' | ⟨x, hx, h'⟩
      · exact .inl h'
      · exact .inr ⟨x, (hin x).2 (.inl hx), h'⟩
    · obtain ⟨i, hi⟩ := List.exists_mem_of_length_pos (l := ids) (by omega)
      exact .inr ⟨⟨i, e.graph.counter, ""⟩, (hin _).2 (.inr ⟨i, hi, rfl⟩), rfl⟩
  · intro x hx
    have key : ∀ n, (n = root ∨ ∃ y ∈ e.graph.edges, y.dst = n) → n = root ∨ ∃ y ∈ (recordMerge e.graph ids).1.edges, y.dst = n := by
      rintro n (h' | ⟨y, hy, h'⟩)
      · exact .inl h'
      · exact .inr ⟨y, (hin y).2 (.inl hy), h'⟩
    rcases (hin x).1 hx with hx | ⟨i, hi, rfl⟩
    · exact key _ (h.srcKnown x hx)
    · exact key _ (h.liveKnown _ (hl i hi))
  · intro x hx hux
    have hux' : e.graph.unlabelled x.src = true := hux
    show ((e.graph.edges ++ ids.map fun id => (⟨id, e.graph.counter, ""⟩ : Edge)).filter fun y => y.src == x.src) = [x]
    rw [List.filter_append]
    rcases (hin x).1 hx with hx | ⟨i, hi, rfl⟩
    · rw [filter_nil (l := ids.map _), List.append_nil]
      · exact h.out1 x hx hux'
      · intro y hy
        obtain ⟨i, hi, rfl⟩ := List.mem_map.1 hy
        have := h.liveOut i (hl i hi) x hx
        simpa using fun h => this h.symm
    · rw [filter_nil (l := e.graph.edges), List.nil_append]
      · exact filter_ids _ ids hnd i hi
      · intro y hy
        simpa using h.liveOut i (hl i hi) y hy
  · intro n y hy
    have hy' : ((e.graph.edges ++ ids.map fun id => (⟨id, e.graph.counter, ""⟩ : Edge)).filter fun x => x.dst == n) = [y] := hy
    show e.graph.unlabelled y.src = false
    by_cases hn : n = e.graph.counter
    · subst hn
      have := congrArg List.length hy'
      rw [List.filter_append, List.length_append] at this
      have e2 : ((ids.map fun id => (⟨id, e.graph.counter, ""⟩ : Edge)).filter fun x => x.dst == e.graph.counter) = ids.map fun id => ⟨id, e.graph.counter, ""⟩ := by
        rw [List.filter_eq_self]; intro x hx; obtain ⟨i, -, rfl⟩ := List.mem_map.1 hx; simp
      rw [e2] at this
      simp at this; omega
    · refine h.in1 n y ?_
      rw [List.filter_append, filter_nil (l := ids.map _), List.append_nil] at hy'
      · exact hy'
      · intro x hx; obtain ⟨i, -, rfl⟩ := List.mem_map.1 hx; simpa using fun h => hn h.symm

theorem inv_apply {root : Nat} {e e' : Expl} {ev : Event} (h : Inv root e) (ha : e.apply ev = some e') : Inv root e' := by
  cases ev with
  | step orig d time news =>
    simp only [Expl.apply] at ha
    split at ha
    · rename_i ho
      split at ha
      · simp at ha
      · rename_i g ids hr
        simp only [Option.some.injEq] at ha
        subst ha
        rcases recordStep_spec hr with ⟨rfl, h' | h'⟩ | ⟨h1, h2, h3, h4, es, h5, h6, h7⟩
        · subst h'
          rw [List.append_nil]
          exact ⟨h.rootLt, h.lt, h.noRoot, h.nodup.erase _, fun l hl => h.liveLt l (List.mem_of_mem_erase hl),
            fun l hl => h.liveOut l (List.mem_of_mem_erase hl), fun l hl => h.liveKnown l (List.mem_of_mem_erase hl), h.srcKnown, h.out1, h.in1⟩
        · subst h'
          have hp : (e.live.erase orig ++ [orig]).Perm e.live := (List.perm_append_comm).trans (List.perm_cons_erase ho).symm
          exact ⟨h.rootLt, h.lt, h.noRoot, hp.nodup_iff.2 h.nodup, fun l hl => h.liveLt l (hp.subset hl),
            fun l hl => h.liveOut l (hp.subset hl), fun l hl => h.liveKnown l (hp.subset hl), h.srcKnown, h.out1, h.in1⟩
        · exact inv_step h ho h1 h2 h3 h4 h5 h6 h7
    · simp at ha
  | ret id label =>
    simp only [Expl.apply] at ha
    split at ha
    · simp only [Option.some.injEq] at ha
      subst ha
      exact inv_label h id label
    · simp at ha
  | merge ids =>
    simp only [Expl.apply] at ha
    split at ha
    · rename_i hc
      simp only [Option.some.injEq] at ha
      subst ha
      exact inv_merge h hc.1 hc.2.1 hc.2.2
    · simp at ha

theorem inv_run {root : Nat} {e e' : Expl} {evs : List Event} (h : Inv root e) (hr : e.run evs = some e') : Inv root e' := by
  induction evs generalizing e with
  | nil => simp only [Expl.run, Option.some.injEq] at hr; subst hr; exact h
  | cons ev evs ih =>
    unfold Expl.run at hr
    split at hr
    · simp at hr
    · rename_i e1 h1
      exact ih (inv_apply h h1) hr

end Verif.Props.GraphProofs

namespace Verif.Props
open Verif.Tool.Graph GraphProofs

/-- A node is reached from another one by edges. -/
inductive GraphPath (es : List Edge) (a : Nat) : Nat → Prop where
  | here : GraphPath es a a
  | more (x : Edge) : x ∈ es → GraphPath es a x.src → GraphPath es a x.dst

/-- A number that occurs in the recorded graph: the initial state, or the end of an edge. -/
def GraphNode (root : Nat) (g : Graph) (n : Nat) : Prop := n = root ∨ ∃ x ∈ g.edges, x.dst = n

/-- C95: in every exploration, recorded edges lead from smaller to larger numbers, so that there are no cycles; both their ends and all states
still explored are reached from the initial state; the states still explored have different numbers and no edge leads on from
them; and no edge leads to the initial state. -/
theorem C95_recorded (counter root : Nat) (h : root < counter) (evs : List Event) (e : Expl) (hr : (start counter root).run evs = some e) :
    (∀ x ∈ e.graph.edges, x.src < x.dst ∧ x.dst ≠ root) ∧ e.live.Nodup ∧ (∀ l ∈ e.live, ∀ x ∈ e.graph.edges, x.src ≠ l) ∧
      (∀ x ∈ e.graph.edges, GraphPath e.graph.edges root x.src ∧ GraphPath e.graph.edges root x.dst) ∧
      ∀ l ∈ e.live, GraphPath e.graph.edges root l := by
  have inv := inv_run (inv_start h) hr
  have reach : ∀ n m, m < n → GraphNode root e.graph m → GraphPath e.graph.edges root m := by
    intro n
    induction n with
    | zero => intro m hm; omega
    | succ n ih =>
      rintro m hm (rfl | ⟨x, hx, rfl⟩)
      · exact .here
      · have := inv.lt x hx
        exact .more x hx (ih _ (by omega) (inv.srcKnown x hx))
  exact ⟨fun x hx => ⟨(inv.lt x hx).1, inv.noRoot x hx⟩, inv.nodup, inv.liveOut,
    fun x hx => ⟨reach _ _ (Nat.lt_succ_self _) (inv.srcKnown x hx), reach _ _ (Nat.lt_succ_self _) (.inr ⟨x, hx, rfl⟩)⟩,
    fun l hl => reach _ _ (Nat.lt_succ_self _) (inv.liveKnown l hl)⟩

/-- C95: an edge that is drawn is a recorded one, with its label, or two, between which there is a node without label. -/
theorem C95_drawn (g : Graph) (x : Edge) (hx : x ∈ g.drawn) :
    ∃ y ∈ g.edges, y.src = x.src ∧ y.label = x.label ∧
      (y.dst = x.dst ∨ ∃ z ∈ g.edges, z.src = y.dst ∧ z.dst = x.dst ∧ g.unlabelled y.dst = true) := by
  obtain ⟨y, hy, rfl⟩ := List.mem_map.1 hx
  refine ⟨y, (List.mem_filter.1 hy).1, rfl, rfl, ?_⟩
  show y.dst = g.endOf y.dst ∨ ∃ z ∈ g.edges, z.src = y.dst ∧ z.dst = g.endOf y.dst ∧ _
  unfold Graph.endOf
  split
  · rename_i hu
    split
    · rename_i z hz
      have : z ∈ g.out y.dst := by rw [hz]; simp
      simp only [Graph.out, List.mem_filter, beq_iff_eq] at this
      exact .inr ⟨z, this.1, this.2, rfl, hu⟩
    · exact .inl rfl
  · exact .inl rfl

namespace GraphProofs

theorem mem_drawn {g : Graph} {y : Edge} (hy : y ∈ g.edges) (hl : g.leftOut y = false) : ⟨y.src, g.endOf y.dst, y.label⟩ ∈ g.drawn := by
  refine List.mem_map.2 ⟨y, List.mem_filter.2 ⟨hy, by simp [hl]⟩, rfl⟩

theorem endOf_next {g : Graph} {n : Nat} {z : Edge} (hu : g.unlabelled n = true) (hz : g.out n = [z]) : g.endOf n = z.dst := by
  simp [Graph.endOf, hu, hz]

/-- An edge that is left out comes from a node without label with one edge in, from a labelled node, and one out. -/
theorem leftOut_spec {root : Nat} {e : Expl} (inv : Inv root e) {y : Edge} (hy : y ∈ e.graph.edges) (hl : e.graph.leftOut y = true) :
    e.graph.unlabelled y.src = true ∧ e.graph.out y.src = [y] ∧
      ∃ w ∈ e.graph.edges, w.dst = y.src ∧ e.graph.into y.src = [w] ∧ e.graph.unlabelled w.src = false ∧ e.graph.leftOut w = false := by
  simp only [Graph.leftOut, Bool.and_eq_true, beq_iff_eq] at hl
  obtain ⟨hu, h1⟩ := hl
  obtain ⟨w, hw⟩ := List.length_eq_one_iff.1 h1
  have hm : w ∈ e.graph.into y.src := by rw [hw]; simp
  simp only [Graph.into, List.mem_filter, beq_iff_eq] at hm
  have hlw := inv.in1 _ _ hw
  exact ⟨hu, inv.out1 y hy hu, w, hm.1, hm.2, hw, hlw, by simp [Graph.leftOut, hlw]⟩

theorem reach_step {root : Nat} {e : Expl} (inv : Inv root e) : ∀ k n, n < k → GraphNode root e.graph n →
    GraphPath e.graph.drawn root n ∨ (e.graph.unlabelled n = true ∧ ∃ z, e.graph.out n = [z] ∧ GraphPath e.graph.drawn root z.dst) := by
  intro k
  induction k with
  | zero => intro n hn; omega
  | succ k ih =>
    rintro n hn (rfl | ⟨y, hy, rfl⟩)
    · exact .inl .here
    · have hlt := inv.lt y hy
      have fin : GraphPath e.graph.drawn root (e.graph.endOf y.dst) → GraphPath e.graph.drawn root y.dst ∨
          (e.graph.unlabelled y.dst = true ∧ ∃ z, e.graph.out y.dst = [z] ∧ GraphPath e.graph.drawn root z.dst) := by
        intro h
        unfold Graph.endOf at h
        split at h
        · rename_i hu
          split at h
          · rename_i z hz
            exact .inr ⟨hu, z, hz, h⟩
          · exact .inl h
        · exact .inl h
      cases hl : e.graph.leftOut y with
      | false =>
        rcases ih y.src (by omega) (inv.srcKnown y hy) with h | ⟨hu, z, hz, h⟩
        · exact fin (.more ⟨y.src, e.graph.endOf y.dst, y.label⟩ (mem_drawn hy hl) h)
        · have := inv.out1 y hy hu
          rw [this] at hz
          simp only [List.cons.injEq, and_true] at hz
          subst hz
          exact .inl h
      | true =>
        obtain ⟨hu, ho, w, hw, hwd, _, hlw, hlo⟩ := leftOut_spec inv hy hl
        have hwlt := inv.lt w hw
        rcases ih w.src (by omega) (inv.srcKnown w hw) with h | ⟨hu', _⟩
        · have := GraphPath.more ⟨w.src, e.graph.endOf w.dst, w.label⟩ (mem_drawn hw hlo) h
          rw [hwd, endOf_next hu ho] at this
          exact .inl this
        · rw [hlw] at hu'; cases hu'

end GraphProofs

/-- C95 (partial: nodes without label to which several edges lead and from which one does may be drawn although nothing drawn leads to them, see
`C95_unreached`): every state that has a label, and every one from which not exactly one edge leads, is reached from the
initial state along the edges that are drawn; of every other state, the state or the one after it is. -/
theorem C95_reached_partial (counter root : Nat) (h : root < counter) (evs : List Event) (e : Expl) (hr : (start counter root).run evs = some e)
    (n : Nat) (hn : GraphNode root e.graph n) :
    (e.graph.unlabelled n = false ∨ (e.graph.edges.filter fun x => x.src == n).length ≠ 1 → GraphPath e.graph.drawn root n) ∧
      (GraphPath e.graph.drawn root n ∨ ∃ z ∈ e.graph.edges, z.src = n ∧ GraphPath e.graph.drawn root z.dst) := by
  have inv := inv_run (inv_start h) hr
  rcases reach_step inv (n + 1) n (Nat.lt_succ_self _) hn with h1 | ⟨hu, z, hz, h1⟩
  · exact ⟨fun _ => h1, .inl h1⟩
  · have hm : z ∈ e.graph.out n := by rw [hz]; simp
    simp only [Graph.out, List.mem_filter, beq_iff_eq] at hm
    refine ⟨?_, .inr ⟨z, hm.1, hm.2, h1⟩⟩
    rintro (h2 | h2)
    · rw [hu] at h2; cases h2
    · exact absurd (by show (e.graph.out n).length = 1; rw [hz]; rfl) h2

/-- C95: the nodes with a double border are those to which a recorded edge leads and from which none does: states still explored
and states at which the exploration ended. -/
theorem C95_ends (counter root : Nat) (h : root < counter) (evs : List Event) (e : Expl) (hr : (start counter root).run evs = some e) (n : Nat) :
    e.graph.doubled n = true ↔ (∃ x ∈ e.graph.edges, x.dst = n) ∧ ∀ x ∈ e.graph.edges, x.src ≠ n := by
  have inv := inv_run (inv_start h) hr
  simp only [Graph.doubled, Bool.and_eq_true, List.any_eq_true, beq_iff_eq, Bool.not_eq_true', List.any_eq_false]
  constructor
  · rintro ⟨⟨x, hx, rfl⟩, h2⟩
    obtain ⟨y, hy, rfl⟩ := List.mem_map.1 hx
    have hy' := List.mem_filter.1 hy
    dsimp only at h2 ⊢
    have target : ∃ x ∈ e.graph.edges, x.dst = e.graph.endOf y.dst := by
      obtain ⟨y1, h3, -, -, h6⟩ := C95_drawn e.graph _ hx
      dsimp only at h6
      rcases h6 with h6 | ⟨z, h7, -, h8, -⟩
      · exact ⟨y1, h3, h6⟩
      · exact ⟨z, h7, h8⟩
    refine ⟨target, ?_⟩
    intro z hz hzn
    cases hl : e.graph.leftOut z with
    | false => exact h2 _ (mem_drawn hz hl) hzn
    | true =>
      obtain ⟨hu, ho, w, hw, hwd, hi, hlw, -⟩ := leftOut_spec inv hz hl
      rw [hzn] at hu ho hi hwd
      by_cases heq : e.graph.endOf y.dst = y.dst
      · rw [heq] at hu ho
        have := endOf_next hu ho
        have := inv.lt z hz
        omega
      · have hk : e.graph.unlabelled y.dst = true ∧ ∃ v, e.graph.out y.dst = [v] ∧ e.graph.endOf y.dst = v.dst := by
          unfold Graph.endOf at heq ⊢
          split at heq
          · rename_i hu'
            split at heq
            · rename_i v hv
              exact ⟨hu', v, hv, by simp [hu']⟩
            · exact absurd rfl heq
          · exact absurd rfl heq
        obtain ⟨k1, v, k2, k3⟩ := hk
        have hv : v ∈ e.graph.out y.dst := by rw [k2]; simp
        simp only [Graph.out, List.mem_filter, beq_iff_eq] at hv
        have : v ∈ e.graph.into (e.graph.endOf y.dst) := by
          simp only [Graph.into, List.mem_filter, beq_iff_eq]; exact ⟨hv.1, k3.symm⟩
        rw [hi] at this
        simp only [List.mem_singleton] at this
        subst this
        rw [hv.2, k1] at hlw
        cases hlw
  · rintro ⟨⟨y, hy, rfl⟩, h2⟩
    have hout : e.graph.out y.dst = [] := filter_nil fun x hx => by simpa using h2 x hx
    have hend : e.graph.endOf y.dst = y.dst := by simp [Graph.endOf, hout]
    refine ⟨?_, ?_⟩
    · cases hl : e.graph.leftOut y with
      | false => exact ⟨_, mem_drawn hy hl, hend⟩
      | true =>
        obtain ⟨hu, ho, w, hw, hwd, -, -, hlo⟩ := leftOut_spec inv hy hl
        exact ⟨_, mem_drawn hw hlo, by show e.graph.endOf w.dst = _; rw [hwd, endOf_next hu ho]⟩
    · intro x hx
      obtain ⟨y', hy', h3, -⟩ := C95_drawn e.graph x hx
      rw [← h3]; exact h2 y' hy'

namespace GraphExample

def con (i : Nat) : Con := ⟨i, none, "x == " ++ toString i⟩

/-- A step forks in five; the first two and the next two are merged, then these two, then the last one. -/
def events : List Event :=
  [.step 0 (.irsb "0x401000") "0.1s" [[con 1], [con 2], [con 3], [con 4], [con 5]], .merge [1, 2], .merge [3, 4], .merge [6, 7], .merge [8, 5]]

/-- The numbers of the edges. -/
def ends (es : List Edge) : List (Nat × Nat) := es.map fun x => (x.src, x.dst)

end GraphExample

/-- The exploration does not fail, and this is what it records and draws. -/
example : ((start 1 0).run GraphExample.events).map (fun e => (e.live, GraphExample.ends e.graph.edges, GraphExample.ends e.graph.drawn)) =
    some ([9], [(0, 1), (0, 2), (0, 3), (0, 4), (0, 5), (1, 6), (2, 6), (3, 7), (4, 7), (6, 8), (7, 8), (8, 9), (5, 9)],
      [(0, 6), (0, 6), (0, 7), (0, 7), (0, 9), (6, 9), (7, 9), (8, 9)]) := by
  decide

/-- C95, the full claim is false (merging.py:163 says that nodes without label are not shown, and that they have one entry and one exit): a node without a
label, with two entries, is drawn, with an edge out and none in, although it is not the initial state. -/
theorem C95_unreached : ∃ (evs : List Event) (e : Expl) (x : Edge), (start 1 0).run evs = some e ∧ x ∈ e.graph.drawn ∧ x.src ≠ 0 ∧
    e.graph.unlabelled x.src = true ∧ ¬ GraphPath e.graph.drawn 0 x.src := by
  refine ⟨GraphExample.events, ((start 1 0).run GraphExample.events).get (by decide), ⟨8, 9, ""⟩, by simp, ?_, by decide, by decide, ?_⟩
  · generalize hd : (((start 1 0).run GraphExample.events).get (by decide)).graph.drawn = d
    have : (d.map fun x => (x.src, x.dst, x.label))[7]? = some (8, 9, "") := by rw [← hd]; decide
    rw [List.getElem?_map] at this
    cases h7 : d[7]? with
    | none => simp [h7] at this
    | some y =>
      simp only [h7, Option.map_some, Option.some.injEq, Prod.mk.injEq] at this
      have hy := List.mem_of_getElem? h7
      obtain ⟨h1, h2, h3⟩ := this
      cases y; simp only at h1 h2 h3; subst h1 h2 h3; exact hy
  · intro h
    have none8 : ∀ x ∈ (((start 1 0).run GraphExample.events).get (by decide)).graph.drawn, x.dst ≠ 8 := by
      rw [← List.forall_mem_map (f := Edge.dst) (P := fun n => n ≠ 8)]
      decide
    generalize hn : (8 : Nat) = n at h
    cases h with
    | here => cases hn
    | more x hx _ => exact none8 x hx hn.symm

namespace GraphProofs

theorem agree_two (a b : List Con) (k : Nat) : agreeAt a [b] k = match b[k]?, a[k]? with
    | some y, some x => some (decide (y.id = x.id))
    | _, _ => none := by
  unfold agreeAt
  split
  · simp only [agreeAt]
    split <;> simp_all
  · simp_all

theorem divergence_two (a b : List Con) : ∀ (fuel i k : Nat), divergence a [b] fuel i = some k →
    i ≤ k ∧ (∃ x y, a[k]? = some x ∧ b[k]? = some y ∧ x.id ≠ y.id) ∧
      ∀ j, i ≤ j → j < k → ∃ x y, a[j]? = some x ∧ b[j]? = some y ∧ x.id = y.id := by
  intro fuel
  induction fuel with
  | zero => intro i k h; simp [divergence] at h
  | succ f ih =>
    intro i k h
    unfold divergence at h
    rw [agree_two] at h
    cases hb : b[i]? with
    | none => simp [hb] at h
    | some y =>
      cases ha : a[i]? with
      | none => simp [hb, ha] at h
      | some x =>
        simp only [hb, ha] at h
        by_cases he : y.id = x.id
        · simp only [he, decide_true] at h
          obtain ⟨h1, h2, h3⟩ := ih _ _ h
          refine ⟨by omega, h2, ?_⟩
          intro j hj hjk
          rcases Nat.eq_or_lt_of_le hj with rfl | hj
          · exact ⟨x, y, ha, hb, he.symm⟩
          · exact h3 j hj hjk
        · simp only [he, decide_false, Option.some.injEq] at h
          subst h
          exact ⟨Nat.le_refl _, ⟨x, y, ha, hb, fun h => he h.symm⟩, fun j h1 h2 => by omega⟩

/-- The loop ends at the first difference if there is one. -/
theorem divergence_found (a b : List Con) (k : Nat) (x y : Con) (hx : a[k]? = some x) (hy : b[k]? = some y) (hne : x.id ≠ y.id)
    (hbefore : ∀ j, j < k → ∃ x y, a[j]? = some x ∧ b[j]? = some y ∧ x.id = y.id) : ∀ (fuel i : Nat), i ≤ k → k < i + fuel → divergence a [b] fuel i = some k := by
  intro fuel
  induction fuel with
  | zero => intro i h1 h2; omega
  | succ f ih =>
    intro i h1 h2
    unfold divergence
    rw [agree_two]
    rcases Nat.eq_or_lt_of_le h1 with rfl | h1
    · simp only [hx, hy, decide_eq_false (fun h => hne h.symm : ¬ y.id = x.id)]
    · obtain ⟨x', y', e1, e2, e3⟩ := hbefore i h1
      simp only [e1, e2, e3, decide_true]
      exact ih (i + 1) h1 (by omega)

end GraphProofs

/-- Two lists of constraints are the same before an index, at which they have different ones. -/
def ForkAt (a b : List Con) (k : Nat) (x y : Con) : Prop :=
  a[k]? = some x ∧ b[k]? = some y ∧ x.id ≠ y.id ∧ ∀ j : Nat, j < k → ∃ x y : Con, a[j]? = some x ∧ b[j]? = some y ∧ x.id = y.id

/-- C95: a fork in two is recorded if and only if the constraints of the two states differ at some index and are the same before it. Then the state
gets two edges, to the two new numbers: the first with the text of the first constraint of that state that differs, the other
without label; if the first state has the negation of the constraint of the second, the labelled edge is that of the second. -/
theorem C95_fork (g : Graph) (orig : Nat) (d : Desc) (time : String) (a b : List Con) :
    ((∃ r, recordStep g orig d time [a, b] = some r) ↔
      ∃ k x y, ForkAt a b k x y) ∧
    ∀ k x y, ForkAt a b k x y →
      ∃ nodes, recordStep g orig d time [a, b] = some (⟨g.counter + 2, nodes,
        g.edges ++ if x.negates = some y.id then [⟨orig, g.counter + 1, y.text⟩, ⟨orig, g.counter, ""⟩]
          else [⟨orig, g.counter, x.text⟩, ⟨orig, g.counter + 1, ""⟩]⟩, [g.counter, g.counter + 1]) := by
  have fwd : ∀ k x y, ForkAt a b k x y →
      ∃ nodes, recordStep g orig d time [a, b] = some (⟨g.counter + 2, nodes,
        g.edges ++ if x.negates = some y.id then [⟨orig, g.counter + 1, y.text⟩, ⟨orig, g.counter, ""⟩]
          else [⟨orig, g.counter, x.text⟩, ⟨orig, g.counter + 1, ""⟩]⟩, [g.counter, g.counter + 1]) := by
    intro k x y ⟨hx, hy, hne, hb⟩
    have hk : k < a.length := (List.getElem?_eq_some_iff.1 hx).1
    have hd := divergence_found a b k x y hx hy hne hb (a.length + 1) 0 (by omega) (by omega)
    refine ⟨put g.nodes orig (nodeLabel d time), ?_⟩
    simp only [recordStep, hd, number, order, hx, hy, List.length_cons, List.length_nil]
    by_cases hn : x.negates = some y.id
    · simp [hn, edgesTo, labelOf, hy]
    · simp [hn, edgesTo, labelOf, hx]
  refine ⟨⟨?_, ?_⟩, fwd⟩
  · rintro ⟨r, hr⟩
    cases hd : divergence a [b] (a.length + 1) 0 with
    | none => simp [recordStep, hd] at hr
    | some k =>
      obtain ⟨-, ⟨x, y, h1, h2, h3⟩, h4⟩ := divergence_two a b _ _ _ hd
      exact ⟨k, x, y, h1, h2, h3, fun j hj => h4 j (Nat.zero_le _) hj⟩
  · rintro ⟨k, x, y, h1⟩
    obtain ⟨nodes, h⟩ := fwd k x y h1
    exact ⟨_, h⟩

/-- A fork on a condition, whose negation the first state has. -/
example : let c : Con := ⟨1, none, "x == 0"⟩
    let c' : Con := ⟨2, some 1, "x != 0"⟩
    let old : Con := ⟨0, none, "y == 0"⟩
    (recordStep ⟨1, [], []⟩ 0 (.irsb "0x401000") "0.1s" [[old, c'], [old, c]]).map
      (fun r => r.1.edges.map fun x => (x.src, x.dst, x.label)) = some [(0, 2, "x == 0"), (0, 1, "")] := by
  decide

/-- All states have the same constraint at an index as the first one. -/
private theorem agreeAt_true (first : List Con) : ∀ (rest : List (List Con)) (i : Nat), agreeAt first rest i = some true →
    ∀ st ∈ rest, ∃ x y : Con, first[i]? = some x ∧ st[i]? = some y ∧ x.id = y.id := by
  intro rest
  induction rest with
  | nil => intro i _ st hst; simp at hst
  | cons s ss ih =>
    intro i h st hst
    unfold agreeAt at h
    split at h
    · rename_i a b ha hb
      split at h
      · rename_i hab
        rcases List.mem_cons.1 hst with rfl | hst
        · exact ⟨b, a, hb, ha, hab.symm⟩
        · exact ih i h st hst
      · simp at h
    · simp at h

private theorem agreeAt_false (first : List Con) : ∀ (rest : List (List Con)) (i : Nat), agreeAt first rest i = some false →
    ∃ st ∈ rest, ∃ x y : Con, first[i]? = some x ∧ st[i]? = some y ∧ x.id ≠ y.id := by
  intro rest
  induction rest with
  | nil => intro i h; simp [agreeAt] at h
  | cons s ss ih =>
    intro i h
    unfold agreeAt at h
    split at h
    · rename_i a b ha hb
      split at h
      · obtain ⟨st, hst, r⟩ := ih i h
        exact ⟨st, List.mem_cons_of_mem _ hst, r⟩
      · rename_i hab
        exact ⟨s, List.mem_cons_self, b, a, hb, ha, fun e => hab e.symm⟩
    · simp at h

private theorem divergence_before (first : List Con) (rest : List (List Con)) : ∀ (fuel i k : Nat), divergence first rest fuel i = some k →
    ∀ j, i ≤ j → j < k → agreeAt first rest j = some true := by
  intro fuel
  induction fuel with
  | zero => intro i k h; simp [divergence] at h
  | succ f ih =>
    intro i k h j h1 h2
    unfold divergence at h
    split at h
    · simp at h
    · simp only [Option.some.injEq] at h; omega
    · rename_i ht
      by_cases e : j = i
      · subst e; exact ht
      · exact ih _ _ h j (by omega) h2

private theorem edgesTo_labels (orig count k : Nat) (hc : count ≠ 2) : ∀ (news : List (List Con)) (c n : Nat) (es : List Edge),
    edgesTo orig count k n (number c news) = some es →
    es.length = news.length ∧ ∀ (i : Nat) (st : List Con), news[i]? = some st → ∃ x : Con, st[k]? = some x ∧ es[i]? = some ⟨orig, c + i, x.text⟩ := by
  intro news
  induction news with
  | nil => intro c n es h; simp only [number, edgesTo, Option.some.injEq] at h; subst h; simp
  | cons s ss ih =>
    intro c n es h
    unfold number edgesTo at h
    split at h
    · simp at h
    · rename_i label hl
      split at h
      · simp at h
      · rename_i es' he
        simp only [Option.some.injEq] at h
        subst h
        obtain ⟨h1, h2⟩ := ih _ _ _ he
        refine ⟨by simp [h1], ?_⟩
        intro i st hst
        cases i with
        | zero =>
          simp only [List.getElem?_cons_zero, Option.some.injEq] at hst
          subst hst
          simp only [labelOf, hc, false_and, if_false, Option.map_eq_some_iff] at hl
          obtain ⟨x, hx, rfl⟩ := hl
          exact ⟨x, hx, by simp⟩
        | succ i =>
          simp only [List.getElem?_cons_succ] at hst
          obtain ⟨x, hx, h3⟩ := h2 i st hst
          refine ⟨x, hx, ?_⟩
          simp only [List.getElem?_cons_succ, h3]
          congr 2; omega

/-- C95: of a fork in more than two, the states have the same constraints up to some index, where one of them differs from the first; each state, in
order, has an edge with the text of its own constraint at that index. -/
theorem C95_fork_more (g g' : Graph) (orig : Nat) (d : Desc) (time : String) (first second third : List Con) (more : List (List Con)) (ids : List Nat)
    (h : recordStep g orig d time (first :: second :: third :: more) = some (g', ids)) :
    ids = List.range' g.counter (more.length + 3) ∧ ∃ (k : Nat) (es : List Edge),
      (∀ j : Nat, j < k → ∀ st ∈ second :: third :: more, ∃ x y : Con, first[j]? = some x ∧ st[j]? = some y ∧ x.id = y.id) ∧
      (∃ st ∈ second :: third :: more, ∃ x y : Con, first[k]? = some x ∧ st[k]? = some y ∧ x.id ≠ y.id) ∧
      g'.edges = g.edges ++ es ∧ es.length = more.length + 3 ∧
      ∀ (i : Nat) (st : List Con), (first :: second :: third :: more)[i]? = some st →
        ∃ x : Con, st[k]? = some x ∧ es[i]? = some ⟨orig, g.counter + i, x.text⟩ := by
  unfold recordStep at h
  split at h
  · rename_i e; simp at e
  · rename_i e; simp at e
  · rename_i f r _ e
    simp only [List.cons.injEq] at e
    obtain ⟨rfl, rfl⟩ := e
    split at h
    · simp at h
    · rename_i k hk
      dsimp only at h
      have ho : order k (number g.counter (first :: second :: third :: more)) = number g.counter (first :: second :: third :: more) := rfl
      rw [ho] at h
      split at h
      · simp at h
      · rename_i es he
        simp only [Option.some.injEq, Prod.mk.injEq] at h
        obtain ⟨rfl, rfl⟩ := h
        have hc : (number g.counter (first :: second :: third :: more)).length ≠ 2 := by
          rw [GraphProofs.number_length]; simp
        obtain ⟨h1, h2⟩ := edgesTo_labels _ _ _ hc _ _ _ _ he
        refine ⟨by rw [GraphProofs.number_ids]; simp, k, es, ?_, ?_, rfl, by simpa using h1, h2⟩
        · intro j hj
          exact agreeAt_true _ _ _ (divergence_before _ _ _ _ _ hk j (Nat.zero_le _) hj)
        · exact agreeAt_false _ _ _ (GraphProofs.divergence_first _ _ _ _ _ hk)

/-- A fork in three. -/
example : (recordStep ⟨1, [], []⟩ 0 (.irsb "0x401000") "0.1s" [[⟨0, none, "y == 0"⟩, ⟨1, none, "x == 0"⟩], [⟨0, none, "y == 0"⟩, ⟨2, none, "x == 1"⟩],
    [⟨0, none, "y == 0"⟩, ⟨3, none, "x > 1"⟩]]).map (fun r => r.1.edges.map fun x => (x.src, x.dst, x.label)) =
      some [(0, 1, "x == 0"), (0, 2, "x == 1"), (0, 3, "x > 1")] := by
  decide

/-- C95 (the comment at merging.py:138 hopes that states only append different constraints): if the constraints of one of two states are the first ones of
the other, recording the fork fails. -/
theorem C95_prefix_fails (g : Graph) (orig : Nat) (d : Desc) (time : String) (a more : List Con) :
    recordStep g orig d time [a, a ++ more] = none ∧ recordStep g orig d time [a ++ more, a] = none := by
  have same : ∀ (j : Nat) (x y : Con), a[j]? = some x → (a ++ more)[j]? = some y → x = y := by
    intro j x y h1 h2
    have := (List.getElem?_eq_some_iff.1 h1).1
    rw [List.getElem?_append_left this, h1] at h2
    exact Option.some.inj h2
  constructor
  · cases h : recordStep g orig d time [a, a ++ more] with
    | none => rfl
    | some r =>
      obtain ⟨k, x, y, h1, h2, h3, -⟩ := (C95_fork g orig d time a (a ++ more)).1.1 ⟨r, h⟩
      exact absurd (congrArg Con.id (same k x y h1 h2)) h3
  · cases h : recordStep g orig d time [a ++ more, a] with
    | none => rfl
    | some r =>
      obtain ⟨k, x, y, h1, h2, h3, -⟩ := (C95_fork g orig d time (a ++ more) a).1.1 ⟨r, h⟩
      exact absurd (congrArg Con.id (same k y x h2 h1)).symm h3

/-- C95: a label that says that a state returned may be that of a state that goes on (merging.py:231 "in case it's the last one"): a function that was called
returned, and another step without fork is not recorded, but a merge is. -/
theorem C95_return_goes_on : ∃ (evs : List Event) (e : Expl), (start 1 0).run evs = some e ∧
    e.graph.nodes = [(0, "Branch: 0x401000\n0.1s"), (1, "ret")] ∧ e.graph.doubled 1 = false ∧ (1, 3) ∈ GraphExample.ends e.graph.drawn := by
  refine ⟨[.step 0 (.irsb "0x401000") "0.1s" [[GraphExample.con 1], [GraphExample.con 2]], .ret 1 "ret", .merge [1, 2]],
    ((start 1 0).run [.step 0 (.irsb "0x401000") "0.1s" [[GraphExample.con 1], [GraphExample.con 2]], .ret 1 "ret", .merge [1, 2]]).get (by decide),
    by simp, by decide, by decide, by decide⟩

end Verif.Props
