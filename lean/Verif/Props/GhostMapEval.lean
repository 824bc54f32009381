/- Evaluating reads and updates of ghost maps on given states; used to show what goes wrong (C19 to C26). -/
import Verif.Props.GhostMap

set_option autoImplicit false

namespace Verif.Tool.GhostMap

@[simp] theorem same_var (i j : Nat) : (E.var i).same (.var j) = decide (i = j) := by simp [E.same, E.symbolic]
@[simp] theorem same_const (i j : Nat) : (E.const i).same (.const j) = decide (i = j) := by
  by_cases h : i = j <;> simp [E.same, E.symbolic, E.den, h]
@[simp] theorem same_var_const (i j : Nat) : (E.var i).same (.const j) = false := by simp [E.same, E.symbolic]
@[simp] theorem same_const_var (i j : Nat) : (E.const i).same (.var j) = false := by simp [E.same, E.symbolic]

theorem definitely_false {cs : List B} {b : B} {ρ : Env} (hs : sat cs ρ) (hb : b.den ρ = false) : definitely cs b = false := by
  cases h : definitely cs b with
  | false => rfl
  | true => rw [definitely_sound h hs] at hb; exact absurd hb (by simp)

/-- There is no match if no key is written the same and an assignment makes them all different. -/
theorem exactMatch_none {cs : List B} {key : E} {l : List Item} {ρ : Env} (hs : sat cs ρ) (hne : ∀ i ∈ l, key.same i.key = false)
    (hd : key.symbolic = true → ∀ i ∈ l, key.den ρ ≠ i.key.den ρ) {cond : B} (hc : cond.den ρ = true := by rfl) : exactMatch cs key l cond = none := by
  unfold exactMatch
  have h1 : (l.find? fun c => key.same c.key) = none := by
    rw [List.find?_eq_none]
    intro i hi
    simpa using hne i hi
  simp only [h1]
  split
  · rename_i hsym
    rw [List.find?_eq_none]
    intro i hi
    have : definitely cs (.or (.not cond) (key.eq i.key)) = false := by
      refine definitely_false hs ?_
      have := hd hsym i hi
      simpa [B.den, den_eq, hc] using this
    simp [this]
  · rfl

/-- The match is the first item with the same key, as written. -/
theorem exactMatch_hit {cs : List B} {key : E} {l : List Item} {cond : B} {i : Item}
    (h : l.find? (fun c => key.same c.key) = some i) : exactMatch cs key l cond = some i := by
  unfold exactMatch
  rw [h]

/-- The converse of `applyInvs_pure`. -/
theorem applyInvs_sound (g : GetFn) (item : Item) (cond : B) (st : State) {n m : Nat} (hi : item.within m) (hnm : n ≤ m) :
    ∀ (invs : List IB) (bs : List B) (st' : State), (∀ inv ∈ invs, inv.pure n) → applyInvs g item cond st invs = some (bs, st') →
      ∀ ρ, (∀ b ∈ bs, b.den ρ = true) → ∀ inv ∈ invs, inv.sem noMaps ρ (item.key.den ρ) (item.value.den ρ) (item.present.den ρ) = true
  | [], _, _, _, _ => by simp
  | inv :: invs, bs, st', h, he => by
    obtain ⟨r, h1, h2, h3⟩ := evalB_pure g item (.and item.present cond) st hi hnm inv (h inv (by simp))
    obtain ⟨bs', g1, -⟩ := applyInvs_pure g item cond st hi hnm invs fun i hi => h i (by simp [hi])
    have h1' : applyInv g st inv item cond = some (r, st) := h1
    simp only [applyInvs, h1', g1, Option.some.injEq, Prod.mk.injEq] at he
    obtain ⟨rfl, rfl⟩ := he
    intro ρ hb
    simp only [List.forall_mem_cons] at hb ⊢
    exact ⟨by rw [← h3]; exact hb.1, applyInvs_sound g item cond st hi hnm invs bs' st (fun i hi => h i (by simp [hi])) g1 ρ hb.2⟩

/-- What a read that finds no match does. -/
theorem get_miss (fuel : Nat) (st : State) (obj : Nat) (ver : Option Nat) (key : E) (hint : Option E) (cond : B)
    (he : isEmpty (lengthOf (st.maps obj) ((st.maps obj).layers.drop (skip (st.maps obj) ver))) = false)
    (hm : exactMatch st.constraints key ((known (st.maps obj).base ((st.maps obj).layers.drop (skip (st.maps obj) ver))).1 ++ [(st.maps obj).unknown]) cond = none)
    (hk : key.within st.next) (hi : ∀ inv ∈ (st.maps obj).invs, inv.pure st.next) :
    ∃ st', get (fuel + 1) st obj ver key hint cond = some ((.var st.next, .var st.next), st') ∧
      (∀ c ∈ sameAs ⟨key, .var st.next, .var st.next⟩ ((known (st.maps obj).base ((st.maps obj).layers.drop (skip (st.maps obj) ver))).1 ++ [(st.maps obj).unknown]),
        c ∈ st'.constraints) ∧
      (∀ c ∈ st.constraints, c ∈ st'.constraints) ∧ (∀ c ∈ hintConstraint cond (.var st.next) hint, c ∈ st'.constraints) ∧
      st'.next = st.next + 1 ∧ (∀ o, o ≠ obj → st'.maps o = st.maps o) ∧
      (st'.maps obj).base = (st.maps obj).base ++ [⟨key, .var st.next, .var st.next⟩] ∧
      (skip (st.maps obj) ver = 0 → (st'.maps obj).layers =
        (known ((st.maps obj).base ++ [⟨key, .var st.next, .var st.next⟩]) (known (st.maps obj).base (st.maps obj).layers).2).2) ∧
      (st'.maps obj).unknown = (st.maps obj).unknown ∧ (st'.maps obj).invs = (st.maps obj).invs ∧ (st'.maps obj).baseLength = (st.maps obj).baseLength ∧
      (∀ ρ, sat st'.constraints ρ → (isUnknown key (known (st.maps obj).base ((st.maps obj).layers.drop (skip (st.maps obj) ver))).1).den ρ = true →
        ∀ inv ∈ (st.maps obj).invs, inv.sem noMaps ρ (key.den ρ) (ρ.bv st.next) (ρ.bl st.next) = true) := by
  have hcs : (st.setMap obj ((st.maps obj).setLower (skip (st.maps obj) ver) (known (st.maps obj).base ((st.maps obj).layers.drop (skip (st.maps obj) ver))).2)).constraints = st.constraints := rfl
  have hitem : Item.within (st.next + 1) ⟨key, .var st.next, .var st.next⟩ := ⟨E.within_mono (Nat.le_succ _) _ hk, Nat.lt_succ_self _, Nat.lt_succ_self _⟩
  have hinv : ∀ st0 : State, ∃ bs, applyInvs (get fuel) ⟨key, .var st.next, .var st.next⟩ cond st0 (st.maps obj).invs = some (bs, st0) := fun st0 => by
    obtain ⟨bs, h, -⟩ := applyInvs_pure (get fuel) ⟨key, .var st.next, .var st.next⟩ cond st0 hitem (Nat.le_succ _) (st.maps obj).invs hi
    exact ⟨bs, h⟩
  have hrun : get (fuel + 1) st obj ver key hint cond = getNew (get fuel)
      (st.setMap obj ((st.maps obj).setLower (skip (st.maps obj) ver) (known (st.maps obj).base ((st.maps obj).layers.drop (skip (st.maps obj) ver))).2))
      obj (skip (st.maps obj) ver) (known (st.maps obj).base ((st.maps obj).layers.drop (skip (st.maps obj) ver))).1 key hint cond := by
    conv_lhs => unfold get
    simp only [he, Bool.false_eq_true, if_false]
    rw [hcs, hm]
  rw [hrun]
  unfold getNew
  simp only [setMap_same, show (st.setMap obj ((st.maps obj).setLower (skip (st.maps obj) ver) (known (st.maps obj).base ((st.maps obj).layers.drop (skip (st.maps obj) ver))).2)).next = st.next from rfl,
    show ((st.maps obj).setLower (skip (st.maps obj) ver) (known (st.maps obj).base ((st.maps obj).layers.drop (skip (st.maps obj) ver))).2).invs = (st.maps obj).invs from rfl]
  obtain ⟨bs, hbs⟩ := hinv _
  rw [hbs]
  refine ⟨_, rfl, ?_, ?_, ?_, rfl, ?_, ?_, ?_, ?_, ?_, ?_, ?_⟩
  · intro c hc
    simp only [State.add, State.setMap, overfullCheck, List.mem_append]
    exact .inl (.inl (.inl hc))
  · intro c hc
    simp only [State.add, State.setMap, overfullCheck, List.mem_append]
    exact .inr (.inr hc)
  · intro c hc
    simp only [State.add, State.setMap, overfullCheck, List.mem_append]
    exact .inr (.inl hc)
  · intro o ho
    simp [State.add, State.setMap, overfullCheck, ho]
  · simp [State.add, State.setMap, overfullCheck, MapS.setLower]
  · intro h0
    simp [State.add, State.setMap, overfullCheck, MapS.setLower, h0]
  · simp [State.add, State.setMap, overfullCheck, MapS.setLower]
  · simp [State.add, State.setMap, overfullCheck, MapS.setLower]
  · simp [State.add, State.setMap, overfullCheck, MapS.setLower]
  · intro ρ hs hu
    refine applyInvs_sound (get fuel) ⟨key, .var st.next, .var st.next⟩ cond _ hitem (Nat.le_succ _) _ bs _ hi hbs ρ fun b hb => ?_
    have := hs (implies (isUnknown key (known (st.maps obj).base ((st.maps obj).layers.drop (skip (st.maps obj) ver))).1) b)
      (by
        simp only [State.add, State.setMap, overfullCheck, List.mem_append, List.mem_map]
        exact .inl (.inl (.inr ⟨b, hb, rfl⟩)))
    exact (den_implies ρ _ _).1 this hu

/-- When the constraints hold after a read that finds no match, for a map that has not been updated. -/
theorem get_miss_sat (fuel : Nat) (st st' : State) (obj : Nat) (ver : Option Nat) (key : E) (hint : Option E) (cond : B) (r : E × B)
    (hl : (st.maps obj).layers = [])
    (he : isEmpty (st.maps obj).baseLength = false)
    (hm : exactMatch st.constraints key ((st.maps obj).base ++ [(st.maps obj).unknown]) cond = none)
    (hk : key.within st.next) (hi : ∀ inv ∈ (st.maps obj).invs, inv.pure st.next)
    (hg : get (fuel + 1) st obj ver key hint cond = some (r, st')) (ρ : Env) (hs : sat st.constraints ρ)
    (hh : ∀ c ∈ hintConstraint cond (.var st.next) hint, c.den ρ = true)
    (hsame : ∀ c ∈ sameAs ⟨key, .var st.next, .var st.next⟩ ((st.maps obj).base ++ [(st.maps obj).unknown]), c.den ρ = true)
    (hinv : ∀ inv ∈ (st.maps obj).invs, inv.sem noMaps ρ (key.den ρ) (ρ.bv st.next) (ρ.bl st.next) = true)
    (hover : ((knownLength (.const 0) [] ((st.maps obj).base ++ [⟨key, .var st.next, .var st.next⟩])).le (st.maps obj).baseLength).den ρ = true) :
    sat st'.constraints ρ := by
  have hitem : Item.within (st.next + 1) ⟨key, .var st.next, .var st.next⟩ := ⟨E.within_mono (Nat.le_succ _) _ hk, Nat.lt_succ_self _, Nat.lt_succ_self _⟩
  have hcs : (st.setMap obj ((st.maps obj).setLower (skip (st.maps obj) ver) [])).constraints = st.constraints := rfl
  unfold get at hg
  simp only [hl, List.drop_nil, lengthOf, he, Bool.false_eq_true, if_false, known] at hg
  rw [hcs, hm] at hg
  unfold getNew at hg
  simp only [setMap_same, show (st.setMap obj ((st.maps obj).setLower (skip (st.maps obj) ver) [])).next = st.next from rfl,
    show ((st.maps obj).setLower (skip (st.maps obj) ver) []).invs = (st.maps obj).invs from rfl] at hg
  have hinv0 : ∀ st0 : State, ∃ bs, applyInvs (get fuel) ⟨key, .var st.next, .var st.next⟩ cond st0 (st.maps obj).invs = some (bs, st0) ∧
      ∀ b ∈ bs, b.den ρ = true := fun st0 => by
    obtain ⟨bs, h, -, h'⟩ := applyInvs_pure (get fuel) ⟨key, .var st.next, .var st.next⟩ cond st0 hitem (Nat.le_succ _) (st.maps obj).invs hi
    exact ⟨bs, h, h' ρ hinv⟩
  obtain ⟨bs, hbs, hbd⟩ := hinv0 _
  rw [hbs] at hg
  simp only [Option.some.injEq, Prod.mk.injEq] at hg
  rw [← hg.2]
  intro c hc
  simp only [State.add, State.setMap, overfullCheck, List.mem_append, List.mem_map, List.mem_singleton] at hc
  rcases hc with ((h | ⟨b, hb, rfl⟩) | h) | h | h
  · exact hsame c (by simpa [MapS.setLower] using h)
  · rw [den_implies]
    exact fun _ => hbd b hb
  · rw [h]
    simp only [if_true, MapS.setLower, List.take_nil, List.nil_append, List.drop_nil, known, hl, lengthOf]
    unfold notOverfull
    split
    · rfl
    · exact hover
  · exact hh c h
  · exact hs c h

/-- What a read that finds a match does. -/
theorem get_hit (fuel : Nat) (st : State) (obj : Nat) (ver : Option Nat) (key : E) (hint : Option E) (cond : B) (i : Item)
    (he : isEmpty (lengthOf (st.maps obj) ((st.maps obj).layers.drop (skip (st.maps obj) ver))) = false)
    (hm : exactMatch st.constraints key ((known (st.maps obj).base ((st.maps obj).layers.drop (skip (st.maps obj) ver))).1 ++ [(st.maps obj).unknown]) cond = some i) :
    get (fuel + 1) st obj ver key hint cond = some ((i.value, i.present),
      st.setMap obj ((st.maps obj).setLower (skip (st.maps obj) ver) (known (st.maps obj).base ((st.maps obj).layers.drop (skip (st.maps obj) ver))).2)) := by
  unfold get
  simp only [he, Bool.false_eq_true, if_false]
  have : (st.setMap obj ((st.maps obj).setLower (skip (st.maps obj) ver) (known (st.maps obj).base ((st.maps obj).layers.drop (skip (st.maps obj) ver))).2)).constraints = st.constraints := rfl
  rw [this, hm]

/-- What `set` does after its read. -/
theorem set_of_get {fuel : Nat} {st st1 : State} {obj : Nat} {key value : E} {r : E × B} {p : B}
    (hg : get fuel st obj none key none (.lit true) = some (r, st1)) (hp : constantOr st1.constraints r.2 = some p) :
    set fuel st obj key value = some (st1.setMap obj (withItemLayer (st1.maps obj) ⟨key, value, .lit true⟩ (.ite p (.const 0) (.const 1)))) := by
  unfold set
  simp only [hg, hp]

/-- A state where the symbols 0 and 1 are keys used by the program, every map has the unknown item of
symbols 2 and 3 and a length that is symbol 4, and nothing is known. -/
def start : State := ⟨[], 5, fun _ => ⟨[.lift (.lit true)], [], .var 4, ⟨.var 2, .var 3, .var 2⟩, []⟩⟩

theorem start_describes {w : Contents} {ρ : Env} (S : Finset Nat) (hS : ∀ k, k ∈ S ↔ (w k).2 = true) (hc : ρ.bv 4 = S.card) (hlt : S.card < 2 ^ 64)
    (hu : w (ρ.bv 2) = (ρ.bv 3, ρ.bl 2)) : Describes start (fun _ => w) ρ := by
  refine ⟨by simp [sat, start], by simp [start], fun obj => ?_⟩
  refine ⟨⟨by simp [start], by simp [start, E.within], ?_, by simp [start], by simp [start, IB.pure, B.within]⟩, trivial, by simp [start], by simp [start, BaseOk],
    by simp [start, Untouched], hu, by simp [start], ?_, ?_⟩
  · simp [start, Item.within, E.within, B.within]
  · intro inv hi k _
    simp only [start, List.mem_singleton] at hi
    subst hi; rfl
  · intro d
    simp only [start, List.drop_nil]
    exact ⟨S, hS, hc, hlt⟩

end Verif.Tool.GhostMap
