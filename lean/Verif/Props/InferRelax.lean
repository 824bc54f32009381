/- C27, C29: the states inference goes on with, exactly. -/
import Verif.Props.InferWiden
import Verif.Props.GhostMap

set_option autoImplicit false

namespace Verif.Tool.GhostMap

theorem sat_cons {c : B} {cs : List B} {ρ : Env} : sat (c :: cs) ρ ↔ c.den ρ = true ∧ sat cs ρ := by simp [sat]

/-- An invariant assumed under the name of its result. -/
def named (q : Nat × IB) : IB := iimplies (.lift (.var q.1)) q.2

/-- Assuming one invariant of a map about which nothing is recorded. -/
theorem forallInv_pure (fuel : Nat) (st : State) (o : Nat) (p : IB) (hp : p.pure st.next) (hb : (st.maps o).base = []) (hl : (st.maps o).layers = [])
    (hu : (st.maps o).unknown.within st.next) :
    if isEmpty (st.maps o).baseLength then forallInv fuel st o p = some (.lit true, st)
    else ∃ st', forallInv fuel st o p = some (.var st.next, st') ∧ st'.next = st.next + 1 ∧
      st'.maps = (st.setMap o { st.maps o with invs := (st.maps o).invs ++ [named (st.next, p)] }).maps ∧
      ((∀ c ∈ st.constraints, c.within st.next) → ∀ c ∈ st'.constraints, c.within st'.next) ∧
      ∀ ρ, ρ.bl st.next = true → (sat st'.constraints ρ ↔ sat st.constraints ρ ∧
        p.sem noMaps ρ ((st.maps o).unknown.key.den ρ) ((st.maps o).unknown.value.den ρ) ((st.maps o).unknown.present.den ρ) = true) := by
  have hlen : lengthOf (st.maps o) (st.maps o).layers = (st.maps o).baseLength := by rw [hl]; rfl
  split
  · rename_i he
    unfold forallInv
    simp only [hlen, he, if_true]
  · rename_i he
    obtain ⟨u, hu1, hu2, hu3⟩ := evalB_pure (get fuel) (st.maps o).unknown (.and (st.maps o).unknown.present (.lit true)) st hu (Nat.le_refl _) p hp
    have hset : st.setMap o ((st.maps o).setLower 0 []) = st := by
      unfold State.setMap MapS.setLower
      have : (fun o' => if o' = o then { st.maps o with layers := (st.maps o).layers.take 0 ++ [] } else st.maps o') = st.maps := by
        funext o'
        split
        · rename_i h
          subst h
          rw [show List.take 0 (st.maps o').layers ++ [] = (st.maps o').layers from by rw [hl]; rfl]
        · rfl
      rw [this]
    have hk : known (st.maps o).base (st.maps o).layers = ([], []) := by rw [hb, hl]; rfl
    have hdef : ∀ (cs : List B) (e : E), notOverfull cs e [] = .lit true := by
      intro cs e
      unfold notOverfull
      rw [if_pos]
      unfold definitely
      simp [B.den, E.den]
    have hov : overfullCheck st o 0 = (.lit true, st) := by
      unfold overfullCheck
      simp only [List.drop_zero, hk, hdef, hset]
    unfold forallInv
    simp only [hlen, he, if_false, hk, hset, applyAll, hov, Bool.false_eq_true]
    rw [show applyInv (get fuel) st p (st.maps o).unknown (.lit true) = some (u, st) from hu1]
    simp only
    have hpm : IB.pure (st.next + 1) (iimplies (.lift (.var st.next)) p) := ⟨Nat.lt_succ_self _, IB.pure_mono (Nat.le_succ _) _ hp⟩
    have hum : (st.maps o).unknown.within (st.next + 1) :=
      ⟨E.within_mono (Nat.le_succ _) _ hu.1, E.within_mono (Nat.le_succ _) _ hu.2.1, B.within_mono (Nat.le_succ _) _ hu.2.2⟩
    let st1 : State := { st with next := st.next + 1 }.add
      [.iff (.var st.next) (.and (andAll []) (implies (.lit true) (implies (isUnknown (st.maps o).unknown.key []) u)))]
    obtain ⟨b, hb1, hb2, hb3⟩ := evalB_pure (get fuel) (st.maps o).unknown (.and (st.maps o).unknown.present (.lit true)) st1 hum (Nat.le_refl _) _ hpm
    have hadd : addInv fuel st1 o (iimplies (.lift (.var st.next)) p) = some ((st1.add [b]).setMap o { st.maps o with invs := (st.maps o).invs ++ [named (st.next, p)] }) := by
      unfold addInv
      rw [show applyInv (get fuel) st1 (iimplies (.lift (.var st.next)) p) (st1.maps o).unknown (.lit true) = some (b, st1) from hb1]
      rfl
    refine ⟨(st1.add [b]).setMap o { st.maps o with invs := (st.maps o).invs ++ [named (st.next, p)] }, ?_, rfl, rfl, ?_, ?_⟩
    · show (match addInv fuel st1 o (iimplies (.lift (.var st.next)) p) with
        | none => none
        | some st => some (B.var _, st)) = _
      rw [hadd]
    · intro hw c hc
      show B.within (st.next + 1) c
      have hc' : c = b ∨ c = .iff (.var st.next) (.and (andAll []) (implies (.lit true) (implies (isUnknown (st.maps o).unknown.key []) u))) ∨ c ∈ st.constraints := by
        simpa [State.setMap, State.add, st1] using hc
      rcases hc' with rfl | rfl | hc'
      · exact hb2
      · exact ⟨Nat.lt_succ_self _, trivial, trivial, trivial, B.within_mono (Nat.le_succ _) _ hu2⟩
      · exact B.within_mono (Nat.le_succ _) _ (hw c hc')
    · intro ρ hr
      show sat (b :: .iff (.var st.next) (.and (andAll []) (implies (.lit true) (implies (isUnknown (st.maps o).unknown.key []) u))) :: st.constraints) ρ ↔ _
      rw [sat_cons, sat_cons, hb3 ρ]
      simp only [iimplies, IB.sem, B.den, hr, isUnknown, andAll, List.map_nil, implies, hu3 ρ]
      simp
      tauto

/-- Assuming the invariants of one map. -/
theorem assumeConjs_pure (fuel : Nat) (o : Nat) : ∀ (ps : List IB) (st : State), (∀ p ∈ ps, p.pure st.next) → (st.maps o).base = [] → (st.maps o).layers = [] →
    (st.maps o).unknown.within st.next →
    ∃ (st' : State) (names : List (Nat × IB)), assumeConjs fuel o st ps = some st' ∧ st.next ≤ st'.next ∧ names.map Prod.snd = (if isEmpty (st.maps o).baseLength then [] else ps) ∧
      (∀ q ∈ names, st.next ≤ q.1 ∧ q.1 < st'.next) ∧
      st'.maps = (st.setMap o { st.maps o with invs := (st.maps o).invs ++ names.map named }).maps ∧
      ((∀ c ∈ st.constraints, c.within st.next) → ∀ c ∈ st'.constraints, c.within st'.next) ∧
      ∀ ρ, sat st'.constraints ρ ↔ sat st.constraints ρ ∧ ∀ q ∈ names, ρ.bl q.1 = true ∧
        q.2.sem noMaps ρ ((st.maps o).unknown.key.den ρ) ((st.maps o).unknown.value.den ρ) ((st.maps o).unknown.present.den ρ) = true
  | [], st, _, hb, hl, hu => by
    refine ⟨st, [], rfl, Nat.le_refl _, by simp, by simp, ?_, fun h => h, by simp⟩
    funext o'
    simp only [State.setMap, List.map_nil, List.append_nil]
    split
    · rename_i h; rw [h]
    · rfl
  | p :: ps, st, hp, hb, hl, hu => by
    have h1 := forallInv_pure fuel st o p (hp p (by simp)) hb hl hu
    by_cases he : isEmpty (st.maps o).baseLength = true
    · rw [if_pos he] at h1
      have hm : (st.add [.lit true]).maps = st.maps := rfl
      obtain ⟨st', names, g1, g2, g3, g4, g5, g6, g7⟩ := assumeConjs_pure fuel o ps (st.add [.lit true]) (fun q hq => hp q (by simp [hq])) hb hl hu
      rw [hm, if_pos he] at g3
      refine ⟨st', names, ?_, g2, by rw [if_pos he, g3], g4, ?_, ?_, ?_⟩
      · unfold assumeConjs; rw [h1]; exact g1
      · rw [g5]; rfl
      · intro hw
        refine g6 ?_
        intro c hc
        rcases List.mem_cons.1 (show c ∈ B.lit true :: st.constraints from hc) with rfl | hc
        · trivial
        · exact hw c hc
      · intro ρ
        rw [g7 ρ]
        have : sat (st.add [.lit true]).constraints ρ ↔ sat st.constraints ρ := by
          show sat (B.lit true :: st.constraints) ρ ↔ _
          rw [sat_cons]; simp [B.den]
        rw [this]; rfl
    · rw [if_neg he] at h1
      obtain ⟨st1, f1, f2, f3, f4, f5⟩ := h1
      have hm : ((st1.add [.var st.next]).maps o) = { st.maps o with invs := (st.maps o).invs ++ [named (st.next, p)] } := by
        show st1.maps o = _
        rw [f3]; simp [State.setMap]
      have hnx : (st1.add [.var st.next]).next = st.next + 1 := f2
      obtain ⟨st', names, g1, g2, g3, g4, g5, g6, g7⟩ := assumeConjs_pure fuel o ps (st1.add [.var st.next])
        (fun q hq => by rw [hnx]; exact IB.pure_mono (Nat.le_succ _) _ (hp q (by simp [hq]))) (by rw [hm]; exact hb) (by rw [hm]; exact hl)
        (by rw [hm, hnx]; exact ⟨E.within_mono (Nat.le_succ _) _ hu.1, E.within_mono (Nat.le_succ _) _ hu.2.1, B.within_mono (Nat.le_succ _) _ hu.2.2⟩)
      rw [hm] at g3 g5 g7
      rw [hnx] at g2 g4
      have he' : ¬ isEmpty ({ st.maps o with invs := (st.maps o).invs ++ [named (st.next, p)] } : MapS).baseLength = true := he
      rw [if_neg he'] at g3
      refine ⟨st', (st.next, p) :: names, ?_, by omega, by rw [if_neg he]; simp [g3], ?_, ?_, ?_, ?_⟩
      · unfold assumeConjs; rw [f1]; exact g1
      · intro q hq
        rcases List.mem_cons.1 hq with rfl | hq
        · exact ⟨Nat.le_refl _, g2⟩
        · have := g4 q hq; exact ⟨by omega, this.2⟩
      · rw [g5]
        funext o'
        simp only [State.setMap]
        by_cases h : o' = o
        · simp [h]
        · simp only [h, if_false]
          show st1.maps o' = _
          rw [f3]; simp [State.setMap, h]
      · intro hw
        refine g6 ?_
        intro c hc
        rcases List.mem_cons.1 (show c ∈ B.var st.next :: st1.constraints from hc) with rfl | hc
        · show st.next < (st1.add [.var st.next]).next
          rw [hnx]; exact Nat.lt_succ_self _
        · exact f4 hw c hc
      · intro ρ
        rw [g7 ρ]
        have : sat (st1.add [.var st.next]).constraints ρ ↔ sat st.constraints ρ ∧ ρ.bl st.next = true ∧
            p.sem noMaps ρ ((st.maps o).unknown.key.den ρ) ((st.maps o).unknown.value.den ρ) ((st.maps o).unknown.present.den ρ) = true := by
          show sat (B.var st.next :: st1.constraints) ρ ↔ _
          rw [sat_cons]
          simp only [B.den]
          constructor
          · rintro ⟨h1, h2⟩
            have := (f5 ρ h1).1 h2
            exact ⟨this.1, h1, this.2⟩
          · rintro ⟨h1, h2, h3⟩
            exact ⟨h2, (f5 ρ h2).2 ⟨h1, h3⟩⟩
        rw [this]
        simp only [List.mem_cons, forall_eq_or_imp]
        tauto

theorem assumeLengths_spec (o : Nat) : ∀ (others : List Nat) (st : State),
    (assumeLengths st o others).next = st.next ∧ (assumeLengths st o others).maps = st.maps ∧
      ((∀ o, (st.length o).within st.next) → (∀ c ∈ st.constraints, c.within st.next) → ∀ c ∈ (assumeLengths st o others).constraints, c.within st.next) ∧
      (∀ c ∈ st.constraints, c ∈ (assumeLengths st o others).constraints) ∧ (∀ other ∈ others, lengthInv st o other ∈ (assumeLengths st o others).constraints) ∧
      ∀ ρ, sat (assumeLengths st o others).constraints ρ ↔ sat st.constraints ρ ∧ ∀ other ∈ others, (st.length o).den ρ ≤ (st.length other).den ρ
  | [], st => ⟨rfl, rfl, fun _ h => h, fun _ h => h, by simp, by simp [assumeLengths]⟩
  | x :: xs, st => by
    obtain ⟨h1, h2, h3, h5, h6, h4⟩ := assumeLengths_spec o xs (st.add [lengthInv st o x])
    have he : assumeLengths st o (x :: xs) = assumeLengths (st.add [lengthInv st o x]) o xs := rfl
    rw [he]
    refine ⟨h1, h2, ?_, fun c hc => h5 c (by simp [State.add, hc]), ?_, ?_⟩
    · intro hl hw
      refine h3 hl ?_
      intro c hc
      rcases List.mem_cons.1 (show c ∈ lengthInv st o x :: st.constraints from hc) with rfl | hc
      · exact ⟨hl o, hl x⟩
      · exact hw c hc
    · intro other ho
      rcases List.mem_cons.1 ho with rfl | ho
      · exact h5 _ (by simp [State.add])
      · exact h6 other ho
    · intro ρ
      rw [h4 ρ]
      have : sat (st.add [lengthInv st o x]).constraints ρ ↔ (st.length o).den ρ ≤ (st.length x).den ρ ∧ sat st.constraints ρ := by
        show sat (lengthInv st o x :: st.constraints) ρ ↔ _
        rw [sat_cons]; simp [lengthInv, E.le, B.den]
      rw [this]
      simp only [List.mem_cons, forall_eq_or_imp]
      constructor
      · rintro ⟨⟨a, b⟩, c⟩; exact ⟨b, a, c⟩
      · rintro ⟨b, a, c⟩; exact ⟨⟨a, b⟩, c⟩

/-- A map about which only invariants are recorded. -/
def MapS.blank (m : MapS) : Prop := m.base = [] ∧ m.layers = []

theorem MapS.blank_length {st : State} {o : Nat} (h : (st.maps o).blank) : st.length o = (st.maps o).baseLength := by
  unfold State.length; rw [h.2]; rfl

/-- Assuming what was found about all maps. -/
theorem assumeAll_spec (fuel : Nat) : ∀ (fs : List (Nat × Found)) (st : State), (fs.map Prod.fst).Nodup →
    (∀ f ∈ fs, f.2.preds = [] ∧ (∀ p ∈ f.2.conjs, p.pure st.next) ∧ (st.maps f.1).blank) → (∀ o, (st.maps o).unknown.within st.next ∧ (st.length o).within st.next) →
    ∃ (A : State) (names : Nat → List (Nat × IB)), assumeAll fuel st fs = some A ∧ st.next ≤ A.next ∧ (∀ o, o ∉ fs.map Prod.fst → A.maps o = st.maps o) ∧
      (∀ f ∈ fs, A.maps f.1 = { st.maps f.1 with invs := (st.maps f.1).invs ++ (names f.1).map named } ∧
        (names f.1).map Prod.snd = (if isEmpty (st.maps f.1).baseLength then [] else f.2.conjs) ∧ ∀ q ∈ names f.1, st.next ≤ q.1 ∧ q.1 < A.next) ∧
      ((∀ c ∈ st.constraints, c.within st.next) → ∀ c ∈ A.constraints, c.within A.next) ∧
      ∀ ρ, sat A.constraints ρ ↔ sat st.constraints ρ ∧ ∀ f ∈ fs,
        (∀ q ∈ names f.1, ρ.bl q.1 = true ∧
          q.2.sem noMaps ρ ((st.maps f.1).unknown.key.den ρ) ((st.maps f.1).unknown.value.den ρ) ((st.maps f.1).unknown.present.den ρ) = true) ∧
        ∀ other ∈ f.2.lens.getD [], (st.length f.1).den ρ ≤ (st.length other).den ρ
  | [], st, _, _, _ => ⟨st, fun _ => [], rfl, Nat.le_refl _, fun _ _ => rfl, by simp, fun h => h, by simp⟩
  | (o, f) :: fs, st, hn, hf, hw => by
    simp only [List.map_cons, List.nodup_cons] at hn
    obtain ⟨hp, hc, hb⟩ := hf (o, f) (by simp)
    simp only at hp hc hb
    obtain ⟨st1, ns, g1, g2, g3, g4, g5, g6, g7⟩ := assumeConjs_pure fuel o f.conjs st hc hb.1 hb.2 (hw o).1
    obtain ⟨k1, k2, k3, -, -, k4⟩ := assumeLengths_spec o (f.lens.getD []) st1
    have hmo : ∀ x, st1.maps x = if x = o then { st.maps o with invs := (st.maps o).invs ++ ns.map named } else st.maps x := by
      intro x; rw [g5]; rfl
    have hlen : ∀ x, st1.length x = st.length x := by
      intro x
      unfold State.length
      rw [hmo x]
      split
      · rename_i h; subst h; rfl
      · rfl
    have hunk : ∀ x, (st1.maps x).unknown = (st.maps x).unknown := by
      intro x
      rw [hmo x]
      split
      · rename_i h; subst h; rfl
      · rfl
    have hbl : ∀ x, (st1.maps x).baseLength = (st.maps x).baseLength := by
      intro x
      rw [hmo x]
      split
      · rename_i h; subst h; rfl
      · rfl
    have hne : ∀ f' ∈ fs, f'.1 ≠ o := fun f' h' he => hn.1 (List.mem_map.2 ⟨f', h', he⟩)
    obtain ⟨A, names, j1, j2, j3, j4, j5, j6⟩ := assumeAll_spec fuel fs (assumeLengths st1 o (f.lens.getD [])) hn.2
      (by
        intro f' h'
        obtain ⟨a1, a2, a3⟩ := hf f' (by simp [h'])
        refine ⟨a1, fun p hp' => ?_, ?_⟩
        · rw [k1]; exact IB.pure_mono g2 _ (a2 p hp')
        · rw [k2, hmo, if_neg (hne f' h')]; exact a3)
      (by
        intro x
        rw [k1, k2, hunk, show (assumeLengths st1 o (f.lens.getD [])).length x = st1.length x from by unfold State.length; rw [k2], hlen]
        exact ⟨⟨E.within_mono g2 _ (hw x).1.1, E.within_mono g2 _ (hw x).1.2.1, B.within_mono g2 _ (hw x).1.2.2⟩, E.within_mono g2 _ (hw x).2⟩)
    rw [k1] at j2 j4
    rw [k2] at j3 j4 j6
    have hlen2 : ∀ x, (assumeLengths st1 o (f.lens.getD [])).length x = st.length x := by
      intro x
      rw [← hlen x]
      unfold State.length; rw [k2]
    refine ⟨A, fun x => if x = o then ns else names x, ?_, g2.trans j2, ?_, ?_, ?_, ?_⟩
    · unfold assumeAll
      rw [g1]
      simp only [hp, assumePreds]
      exact j1
    · intro x hx
      simp only [List.map_cons, List.mem_cons, not_or] at hx
      rw [j3 x hx.2, hmo, if_neg hx.1]
    · intro f' h'
      rcases List.mem_cons.1 h' with rfl | h'
      · refine ⟨?_, ?_, ?_⟩
        · rw [j3 o hn.1, hmo, if_pos rfl]
          simp
        · simp only [if_true]; exact g3
        · intro q hq
          simp only [if_true] at hq
          have := g4 q hq
          exact ⟨this.1, by omega⟩
      · simp only [hne f' h', if_false]
        obtain ⟨a1, a2, a3⟩ := j4 f' h'
        rw [hmo, if_neg (hne f' h')] at a1 a2
        refine ⟨a1, a2, fun q hq => ?_⟩
        have := a3 q hq
        exact ⟨by omega, this.2⟩
    · intro hcs
      refine j5 ?_
      intro c hc'
      rw [k1]
      refine k3 ?_ (g6 hcs) c hc'
      intro x
      rw [hlen]
      exact E.within_mono g2 _ (hw x).2
    · intro ρ
      rw [j6 ρ, k4 ρ, g7 ρ]
      simp only [hlen2, hlen, List.mem_cons, forall_eq_or_imp, hunk, if_true]
      have hrest : (∀ a ∈ fs, (∀ q ∈ names a.1, ρ.bl q.1 = true ∧
          q.2.sem noMaps ρ ((st.maps a.1).unknown.key.den ρ) ((st.maps a.1).unknown.value.den ρ) ((st.maps a.1).unknown.present.den ρ) = true) ∧
          ∀ other ∈ a.2.lens.getD [], (st.length a.1).den ρ ≤ (st.length other).den ρ) ↔
        (∀ a ∈ fs, (∀ q ∈ (if a.1 = o then ns else names a.1), ρ.bl q.1 = true ∧
          q.2.sem noMaps ρ ((st.maps a.1).unknown.key.den ρ) ((st.maps a.1).unknown.value.den ρ) ((st.maps a.1).unknown.present.den ρ) = true) ∧
          ∀ other ∈ a.2.lens.getD [], (st.length a.1).den ρ ≤ (st.length other).den ρ) := by
        refine forall₂_congr fun a ha => ?_
        rw [if_neg (hne a ha)]
      rw [← hrest]
      tauto

/-- Forgetting maps. -/
theorem relaxMaps_spec : ∀ (fs : List (Nat × Found)) (st : State), (fs.map Prod.fst).Nodup →
    (relaxMaps st fs).constraints = st.constraints ∧ st.next ≤ (relaxMaps st fs).next ∧ (∀ o, o ∉ fs.map Prod.fst → (relaxMaps st fs).maps o = st.maps o) ∧
      ∀ f ∈ fs, ∃ i, st.next ≤ i ∧ i + 2 < (relaxMaps st fs).next ∧ (relaxMaps st fs).maps f.1 =
        ⟨[], [], match f.2.lens with
          | none => st.length f.1
          | some _ => .var (i + 2), ⟨.var i, .var (i + 1), .var i⟩, []⟩
  | [], st, _ => ⟨rfl, Nat.le_refl _, fun _ _ => rfl, by simp⟩
  | (o, f) :: fs, st, hn => by
    simp only [List.map_cons, List.nodup_cons] at hn
    obtain ⟨h1, h2, h3, h4⟩ := relaxMaps_spec fs (relaxMap st o f.lens) hn.2
    have he : relaxMaps st ((o, f) :: fs) = relaxMaps (relaxMap st o f.lens) fs := rfl
    have hnx : (relaxMap st o f.lens).next = st.next + 3 := rfl
    rw [hnx] at h2
    have hother : ∀ x, x ≠ o → (relaxMap st o f.lens).maps x = st.maps x := fun x hx => by
      simp [relaxMap, State.setMap, hx]
    rw [he]
    refine ⟨h1, by omega, ?_, ?_⟩
    · intro x hx
      simp only [List.map_cons, List.mem_cons, not_or] at hx
      rw [h3 x hx.2, hother x hx.1]
    · intro f' h'
      rcases List.mem_cons.1 h' with rfl | h'
      · refine ⟨st.next, Nat.le_refl _, by omega, ?_⟩
        rw [h3 o hn.1]
        simp only [relaxMap, State.setMap, if_true]
        cases f.lens <;> rfl
      · obtain ⟨i, i1, i2, i3⟩ := h4 f' h'
        have hne : f'.1 ≠ o := fun he => hn.1 (List.mem_map.2 ⟨f', h', he⟩)
        rw [hnx] at i1
        refine ⟨i, by omega, i2, ?_⟩
        rw [i3, show (relaxMap st o f.lens).length f'.1 = st.length f'.1 from by unfold State.length; rw [hother _ hne]]

/-- The forgotten maps can be given any unknown item, and any length if it is forgotten. -/
theorem relaxMaps_choose (κ v : Nat → Nat) (p : Nat → Bool) (c : Nat → Nat) : ∀ (fs : List (Nat × Found)) (st : State) (ρ : Env), (fs.map Prod.fst).Nodup →
    ∃ ρ', Agree st.next ρ ρ' ∧ ∀ f ∈ fs, ((relaxMaps st fs).maps f.1).unknown.key.den ρ' = κ f.1 ∧ ((relaxMaps st fs).maps f.1).unknown.value.den ρ' = v f.1 ∧
      ((relaxMaps st fs).maps f.1).unknown.present.den ρ' = p f.1 ∧ (f.2.lens ≠ none → ((relaxMaps st fs).maps f.1).baseLength.den ρ' = c f.1)
  | [], st, ρ, _ => ⟨ρ, Agree.refl _ _, by simp⟩
  | (o, f) :: fs, st, ρ, hn => by
    simp only [List.map_cons, List.nodup_cons] at hn
    let ρ1 : Env := ⟨fun i => if i = st.next then κ o else if i = st.next + 1 then v o else if i = st.next + 2 then c o else ρ.bv i,
      fun i => if i = st.next then p o else ρ.bl i⟩
    obtain ⟨ρ', g1, g2⟩ := relaxMaps_choose κ v p c fs (relaxMap st o f.lens) ρ1 hn.2
    have hnx : (relaxMap st o f.lens).next = st.next + 3 := rfl
    rw [hnx] at g1
    have ha : Agree st.next ρ ρ1 := by
      intro i hi
      have e1 : i ≠ st.next := by omega
      have e2 : i ≠ st.next + 1 := by omega
      have e3 : i ≠ st.next + 2 := by omega
      simp [ρ1, e1, e2, e3]
    refine ⟨ρ', ha.trans g1 (by omega), ?_⟩
    have he : relaxMaps st ((o, f) :: fs) = relaxMaps (relaxMap st o f.lens) fs := rfl
    rw [he]
    intro f' h'
    rcases List.mem_cons.1 h' with rfl | h'
    · obtain ⟨-, -, h3, -⟩ := relaxMaps_spec fs (relaxMap st o f.lens) hn.2
      rw [h3 o hn.1]
      have hb1 : ρ'.bv st.next = κ o := by rw [← (g1 st.next (by omega)).1]; simp [ρ1]
      have hb2 : ρ'.bv (st.next + 1) = v o := by rw [← (g1 (st.next + 1) (by omega)).1]; simp [ρ1]
      have hb3 : ρ'.bv (st.next + 2) = c o := by rw [← (g1 (st.next + 2) (by omega)).1]; simp [ρ1]
      have hb4 : ρ'.bl st.next = p o := by rw [← (g1 st.next (by omega)).2]; simp [ρ1]
      simp only [relaxMap, State.setMap, if_true, E.den, B.den, hb1, hb2, hb4, true_and]
      intro hl
      cases hf : f.lens with
      | none => exact absurd hf hl
      | some l => simp [E.den, hb3]
    · exact g2 f' h'

/-- The number of keys that are present. -/
noncomputable def Contents.count (f : Contents) : Nat := {k | (f k).2 = true}.ncard

theorem count_eq {f : Contents} {S : Finset Nat} (h : ∀ k, k ∈ S ↔ (f k).2 = true) : Contents.count f = S.card := by
  unfold Contents.count
  have : {k | (f k).2 = true} = (S : Set Nat) := by ext k; simp [h k]
  rw [this, Set.ncard_coe_finset]

theorem LenOk.count {ρ : Env} {f : Contents} {e : E} (h : LenOk ρ f e) : e.den ρ = Contents.count f := by
  obtain ⟨S, h1, h2, -⟩ := h
  rw [h2, count_eq h1]

/-- What must be true of what was found for it to be assumed exactly. -/
structure Relaxable (st : State) (n : Nat) (fs : List (Nat × Found)) : Prop where
  nodup : (fs.map Prod.fst).Nodup
  preds : ∀ f ∈ fs, f.2.preds = []
  conjs : ∀ f ∈ fs, ∀ p ∈ f.2.conjs, p.pure n
  maps : ∀ o, MapBelow st.next (st.maps o)
  within : ∀ c ∈ st.constraints, c.within st.next

/-- The length a map has when it is forgotten. -/
def relaxedLength (st : State) (o i : Nat) : Option (List Nat) → E
  | none => st.length o
  | some _ => .var (i + 2)

theorem length_within {st : State} {o : Nat} {n : Nat} (h : MapBelow n (st.maps o)) : (st.length o).within n := by
  have := lengthOf_within h 0
  rwa [List.drop_zero] at this

theorem relax_spec (fuel top : Nat) (fs : List (Nat × Found)) (st : State) (h : Relaxable st (max st.next top) fs) (κ v : Nat → Nat) (pr : Nat → Bool) (c : Nat → Nat) (ρ : Env) :
    ∃ (A : State) (names : Nat → List (Nat × IB)), relax fuel top fs st = some A ∧ max st.next top ≤ A.next ∧ (∀ o, o ∉ fs.map Prod.fst → A.maps o = st.maps o) ∧
      (∀ f ∈ fs, ∃ i, max st.next top ≤ i ∧ i + 2 < A.next ∧
        A.maps f.1 = ⟨(names f.1).map named, [], relaxedLength st f.1 i f.2.lens, ⟨.var i, .var (i + 1), .var i⟩, []⟩ ∧
        (names f.1).map Prod.snd = (if isEmpty (relaxedLength st f.1 i f.2.lens) then [] else f.2.conjs) ∧ ∀ q ∈ names f.1, q.1 < A.next) ∧
      (∀ c ∈ A.constraints, c.within A.next) ∧
      (∀ ρ, sat A.constraints ρ ↔ sat st.constraints ρ ∧ ∀ f ∈ fs,
        (∀ q ∈ names f.1, ρ.bl q.1 = true ∧
          q.2.sem noMaps ρ ((A.maps f.1).unknown.key.den ρ) ((A.maps f.1).unknown.value.den ρ) ((A.maps f.1).unknown.present.den ρ) = true) ∧
        ∀ other ∈ f.2.lens.getD [], (A.length f.1).den ρ ≤ (A.length other).den ρ) ∧
      ∃ ρ', Agree (max st.next top) ρ ρ' ∧ ∀ f ∈ fs, (A.maps f.1).unknown.key.den ρ' = κ f.1 ∧ (A.maps f.1).unknown.value.den ρ' = v f.1 ∧
        (A.maps f.1).unknown.present.den ρ' = pr f.1 ∧ (f.2.lens ≠ none → (A.maps f.1).baseLength.den ρ' = c f.1) ∧ ∀ q ∈ names f.1, ρ'.bl q.1 = true := by
  let st0 : State := { st with next := max st.next top }
  have hle : st.next ≤ max st.next top := Nat.le_max_left _ _
  obtain ⟨a1, a2, a3, a4⟩ := relaxMaps_spec fs st0 h.nodup
  obtain ⟨ρ1, b1, b2⟩ := relaxMaps_choose κ v pr c fs st0 ρ h.nodup
  have hst0 : st0.next = max st.next top := rfl
  rw [hst0] at a2 a4 b1
  have hmb : ∀ o, MapBelow (relaxMaps st0 fs).next ((relaxMaps st0 fs).maps o) := by
    intro o
    by_cases ho : o ∈ fs.map Prod.fst
    · obtain ⟨f, hf, rfl⟩ := List.mem_map.1 ho
      obtain ⟨i, i1, i2, i3⟩ := a4 f hf
      rw [i3]
      refine ⟨by simp, ?_, ⟨?_, ?_, ?_⟩, by simp, by simp⟩
      · cases f.2.lens with
        | none => exact E.within_mono (hle.trans a2) _ (length_within (h.maps f.1))
        | some l => exact i2
      · exact show i < _ by omega
      · exact show i + 1 < _ by omega
      · exact show i < _ by omega
    · rw [a3 o ho]
      exact (h.maps o).mono (hle.trans a2)
  obtain ⟨A, names, c1, c2, c3, c4, c5, c6⟩ := assumeAll_spec fuel fs (relaxMaps st0 fs) h.nodup
    (by
      intro f hf
      refine ⟨h.preds f hf, fun p hp => IB.pure_mono a2 _ (h.conjs f hf p hp), ?_⟩
      obtain ⟨i, -, -, i3⟩ := a4 f hf
      rw [i3]
      exact ⟨rfl, rfl⟩)
    (fun o => ⟨(hmb o).unknown, length_within (hmb o)⟩)
  have hunk : ∀ f ∈ fs, (A.maps f.1).unknown = ((relaxMaps st0 fs).maps f.1).unknown := fun f hf => by rw [(c4 f hf).1]
  have hlen : ∀ o, A.length o = (relaxMaps st0 fs).length o := by
    intro o
    unfold State.length
    by_cases ho : o ∈ fs.map Prod.fst
    · obtain ⟨f, hf, rfl⟩ := List.mem_map.1 ho
      rw [(c4 f hf).1]
      rfl
    · rw [c3 o ho]
  refine ⟨A, names, c1, a2.trans c2, ?_, ?_, ?_, ?_, ?_⟩
  · intro o ho
    rw [c3 o ho, a3 o ho]
  · intro f hf
    obtain ⟨i, i1, i2, i3⟩ := a4 f hf
    obtain ⟨d1, d2, d3⟩ := c4 f hf
    have hl : (match f.2.lens with
      | none => st0.length f.1
      | some _ => E.var (i + 2)) = relaxedLength st f.1 i f.2.lens := by
      cases f.2.lens <;> rfl
    rw [hl] at i3
    refine ⟨i, i1, by omega, ?_, ?_, fun q hq => (d3 q hq).2⟩
    · rw [d1, i3]; rfl
    · rw [d2, i3]
  · refine c5 ?_
    rw [a1]
    intro c' hc'
    exact B.within_mono (hle.trans a2) _ (h.within c' hc')
  · intro ρ
    rw [c6 ρ, a1]
    simp only [hlen]
    refine and_congr Iff.rfl (forall₂_congr fun f hf => ?_)
    rw [hunk f hf]
  · let ρ2 : Env := ⟨ρ1.bv, fun i => if i < (relaxMaps st0 fs).next then ρ1.bl i else true⟩
    have ha : Agree (relaxMaps st0 fs).next ρ1 ρ2 := fun i hi => ⟨rfl, by simp [ρ2, hi]⟩
    refine ⟨ρ2, b1.trans ha a2, ?_⟩
    intro f hf
    obtain ⟨e1, e2, e3, e4⟩ := b2 f hf
    have hu := (hmb f.1).unknown
    rw [hunk f hf, ← E.den_congr ha _ hu.1, ← E.den_congr ha _ hu.2.1, ← B.den_congr ha _ hu.2.2]
    refine ⟨e1, e2, e3, ?_, ?_⟩
    · intro hl
      rw [(c4 f hf).1]
      show ((relaxMaps st0 fs).maps f.1).baseLength.den ρ2 = _
      rw [← E.den_congr ha _ (hmb f.1).length]
      exact e4 hl
    · intro q hq
      have := ((c4 f hf).2.2 q hq).1
      simp only [ρ2]
      rw [if_neg (by omega)]

/-- The contents of a map after those found about are forgotten. -/
def contentNow (st : State) (fs : List (Nat × Found)) (W : Nat → Contents) (ρ : Env) (o : Nat) : Contents :=
  if o ∈ fs.map Prod.fst then W o else content ρ (W o) (st.maps o).layers

/-- What was found is true of the contents. -/
structure Fits (st : State) (fs : List (Nat × Found)) (W : Nat → Contents) (ρ : Env) : Prop where
  sat : sat st.constraints ρ
  maps : ∀ o, o ∉ fs.map Prod.fst → MapOk st.next ρ (W o) (st.maps o)
  len : ∀ f ∈ fs, ∃ S : Finset Nat, (∀ k, k ∈ S ↔ (W f.1 k).2 = true) ∧ S.card < 2 ^ 64 ∧ (f.2.lens = none → (st.length f.1).den ρ = S.card)
  conjs : ∀ f ∈ fs, ¬ (f.2.lens = none ∧ isEmpty (st.length f.1) = true) → ∀ p ∈ f.2.conjs, ∀ k, p.sem noMaps ρ k (W f.1 k).1 (W f.1 k).2 = true
  pairs : ∀ f ∈ fs, ∀ other ∈ f.2.lens.getD [], Contents.count (W f.1) ≤ Contents.count (contentNow st fs W ρ other)

theorem relaxedLength_empty {st : State} {o i : Nat} {l : Option (List Nat)} : isEmpty (relaxedLength st o i l) = true ↔ l = none ∧ isEmpty (st.length o) = true := by
  cases l with
  | none => simp [relaxedLength]
  | some l => simp [relaxedLength, isEmpty, E.symbolic]

/-- Whatever fits what was found is described by the new state. -/
theorem relax_fits {fuel top : Nat} {fs : List (Nat × Found)} {st : State} (h : Relaxable st (max st.next top) fs) {W : Nat → Contents} {ρ : Env} (hf : Fits st fs W ρ) (κ : Nat → Nat) :
    ∃ A ρ', relax fuel top fs st = some A ∧ Agree (max st.next top) ρ ρ' ∧ Describes A W ρ' ∧ ∀ f ∈ fs, (A.maps f.1).unknown.key.den ρ' = κ f.1 := by
  obtain ⟨A, names, h1, h2, h3, h4, h5, h6, ρ', h7, h8⟩ := relax_spec fuel top fs st h κ (fun o => (W o (κ o)).1) (fun o => (W o (κ o)).2) (fun o => Contents.count (W o)) ρ
  have hle : st.next ≤ max st.next top := Nat.le_max_left _ _
  have ha : Agree st.next ρ ρ' := fun i hi => h7 i (by omega)
  have hmaps : ∀ o, MapOk A.next ρ' (W o) (A.maps o) := by
    intro o
    by_cases ho : o ∈ fs.map Prod.fst
    · obtain ⟨f, hfs, rfl⟩ := List.mem_map.1 ho
      obtain ⟨i, i1, i2, i3, i4, i5⟩ := h4 f hfs
      obtain ⟨e1, e2, e3, e4, e5⟩ := h8 f hfs
      obtain ⟨S, s1, s2, s3⟩ := hf.len f hfs
      rw [i3] at e1 e2 e3 e4
      simp only at e1 e2 e3 e4
      have hlenw : (relaxedLength st f.1 i f.2.lens).within A.next := by
        cases f.2.lens with
        | none => exact E.within_mono (by omega) _ (length_within (h.maps f.1))
        | some l => exact i2
      have hmem : ∀ q ∈ names f.1, ¬ (f.2.lens = none ∧ isEmpty (st.length f.1) = true) ∧ q.2 ∈ f.2.conjs := by
        intro q hq
        have : q.2 ∈ (names f.1).map Prod.snd := List.mem_map.2 ⟨q, hq, rfl⟩
        rw [i4] at this
        split at this
        · simp at this
        · rename_i hne
          rw [relaxedLength_empty] at hne
          exact ⟨hne, this⟩
      rw [i3]
      refine ⟨⟨by simp, hlenw, ⟨by show i < _; omega, by show i + 1 < _; omega, by show i < _; omega⟩, by simp, ?_⟩, trivial, by simp, by simp [BaseOk], by simp [Untouched], ?_, by simp, ?_, ?_⟩
      · intro inv hinv
        obtain ⟨q, hq, rfl⟩ := List.mem_map.1 hinv
        exact ⟨i5 q hq, IB.pure_mono h2 _ (h.conjs f hfs _ (hmem q hq).2)⟩
      · show W f.1 (E.den ρ' (.var i)) = (E.den ρ' (.var (i + 1)), B.den ρ' (.var i))
        rw [e1, e2, e3]
      · intro inv hinv k _
        obtain ⟨q, hq, rfl⟩ := List.mem_map.1 hinv
        have hp := hmem q hq
        simp only [named, iimplies, IB.sem, B.den, Bool.or_eq_true]
        right
        rw [← IB.sem_congr h7 _ _ _ _ (h.conjs f hfs _ hp.2)]
        exact hf.conjs f hfs hp.1 _ hp.2 k
      · intro d
        refine ⟨S, ?_, ?_, s2⟩
        · intro k
          simp only [List.drop_nil, content]
          exact s1 k
        · simp only [List.drop_nil, lengthOf]
          cases hl : f.2.lens with
          | none =>
            rw [← s3 hl]
            exact (E.den_congr ha _ (length_within (h.maps f.1))).symm
          | some l =>
            rw [hl] at e4
            rw [e4 (by simp), count_eq s1]
    · rw [h3 o ho]
      exact (hf.maps o ho).congr (by omega) ha
  have hcount : ∀ o, (A.length o).den ρ' = Contents.count (contentNow st fs W ρ o) := by
    intro o
    have hl := (hmaps o).length 0
    rw [List.drop_zero] at hl
    rw [show A.length o = lengthOf (A.maps o) (A.maps o).layers from rfl, hl.count]
    unfold contentNow
    split
    · rename_i ho
      obtain ⟨f, hfs, rfl⟩ := List.mem_map.1 ho
      obtain ⟨i, -, -, i3, -⟩ := h4 f hfs
      rw [i3]
      rfl
    · rename_i ho
      rw [h3 o ho, content_congr ha (W o) fun l hl => ((h.maps o).layers l hl).2]
  refine ⟨A, ρ', h1, h7, ⟨?_, h5, hmaps⟩, fun f hfs => (h8 f hfs).1⟩
  rw [h6 ρ']
  refine ⟨fun c hc => ?_, fun f hfs => ⟨fun q hq => ⟨(h8 f hfs).2.2.2.2 q hq, ?_⟩, ?_⟩⟩
  · rw [← B.den_congr ha _ (h.within c hc)]
    exact hf.sat c hc
  · have hinv := (hmaps f.1).invs
    obtain ⟨i, -, -, i3, -⟩ := h4 f hfs
    have hb : (A.maps f.1).base = [] := by rw [i3]
    have hm : named q ∈ (A.maps f.1).invs := by rw [i3]; exact List.mem_map.2 ⟨q, hq, rfl⟩
    have hx := hinv _ hm ((A.maps f.1).unknown.key.den ρ') (by rw [hb]; simp)
    rw [(hmaps f.1).unknown] at hx
    simp only [named, iimplies, IB.sem, B.den, (h8 f hfs).2.2.2.2 q hq, Bool.not_true, Bool.false_or] at hx
    exact hx
  · intro other ho
    rw [hcount, hcount]
    have hx := hf.pairs f hfs other ho
    rw [show contentNow st fs W ρ f.1 = W f.1 from if_pos (List.mem_map.2 ⟨f, hfs, rfl⟩)]
    exact hx

/-- Whatever is described by the new state fits what was found. -/
theorem fits_of_relax {fuel top : Nat} {fs : List (Nat × Found)} {st A : State} (h : Relaxable st (max st.next top) fs) {W : Nat → Contents} {ρ : Env}
    (hA : relax fuel top fs st = some A) (hd : Describes A W ρ) : Fits st fs W ρ := by
  obtain ⟨A', names, h1, h2, h3, h4, h5, h6, -⟩ := relax_spec fuel top fs st h (fun _ => 0) (fun _ => 0) (fun _ => false) (fun _ => 0) ρ
  rw [hA] at h1
  simp only [Option.some.injEq] at h1
  subst h1
  have hsat := (h6 ρ).1 hd.sat
  have hcount : ∀ o, (A.length o).den ρ = Contents.count (contentNow st fs W ρ o) := by
    intro o
    have hl := (hd.maps o).length 0
    rw [List.drop_zero] at hl
    rw [show A.length o = lengthOf (A.maps o) (A.maps o).layers from rfl, hl.count]
    unfold contentNow
    split
    · rename_i ho
      obtain ⟨f, hfs, rfl⟩ := List.mem_map.1 ho
      obtain ⟨i, -, -, i3, -⟩ := h4 f hfs
      rw [i3]
      rfl
    · rename_i ho
      rw [h3 o ho]
  refine ⟨hsat.1, ?_, ?_, ?_, ?_⟩
  · intro o ho
    have := hd.maps o
    rw [h3 o ho] at this
    exact { this with within := h.maps o }
  · intro f hfs
    obtain ⟨i, i1, i2, i3, i4, i5⟩ := h4 f hfs
    obtain ⟨S, s1, s2, s3⟩ := (hd.maps f.1).length 0
    rw [i3] at s1 s2
    refine ⟨S, s1, s3, fun hl => ?_⟩
    rw [← s2]
    simp [lengthOf, hl, relaxedLength]
  · intro f hfs hne p hp k
    obtain ⟨i, i1, i2, i3, i4, i5⟩ := h4 f hfs
    rw [if_neg (by rw [relaxedLength_empty]; exact hne)] at i4
    rw [← i4] at hp
    obtain ⟨q, hq, rfl⟩ := List.mem_map.1 hp
    have hb : (A.maps f.1).base = [] := by rw [i3]
    have hm : named q ∈ (A.maps f.1).invs := by rw [i3]; exact List.mem_map.2 ⟨q, hq, rfl⟩
    have hx := (hd.maps f.1).invs _ hm k (by rw [hb]; simp)
    simp only [named, iimplies, IB.sem, B.den, ((hsat.2 f hfs).1 q hq).1, Bool.not_true, Bool.false_or] at hx
    exact hx
  · intro f hfs other ho
    have hx := (hsat.2 f hfs).2 other ho
    rw [hcount, hcount, show contentNow st fs W ρ f.1 = W f.1 from if_pos (List.mem_map.2 ⟨f, hfs, rfl⟩)] at hx
    exact hx

end Verif.Tool.GhostMap
