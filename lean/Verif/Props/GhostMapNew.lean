/- New ghost maps (C19). -/
import Verif.Props.GhostMapSet

set_option autoImplicit false

namespace Verif.Tool.GhostMap

theorem addInv_empty (fuel : Nat) (st : State) (obj : Nat) : addInv fuel st obj (.not .present) =
    some ((st.add [.not (st.maps obj).unknown.present]).setMap obj { st.maps obj with invs := (st.maps obj).invs ++ [.not .present] }) := by
  unfold addInv applyInv
  simp only [evalB]
  rfl

theorem addInv_array (fuel : Nat) (st : State) (obj : Nat) (length : E) :
    addInv fuel st obj (.iff (.rel (fun x y => decide (x < y)) .key (.lift length)) .present) =
    some ((st.add [.iff (.rel (fun x y => decide (x < y)) (st.maps obj).unknown.key length) (st.maps obj).unknown.present]).setMap obj
      { st.maps obj with invs := (st.maps obj).invs ++ [.iff (.rel (fun x y => decide (x < y)) .key (.lift length)) .present] }) := by
  unfold addInv applyInv
  simp only [evalB, evalE]
  rfl

/-- An assignment with values for the symbols of a new map. -/
def Env.with (ρ : Env) (n k v : Nat) (p : Bool) : Env :=
  ⟨fun i => if i = n then k else if i = n + 1 then v else ρ.bv i, fun i => if i = n then p else ρ.bl i⟩

theorem Env.with_agree (ρ : Env) (n k v : Nat) (p : Bool) : Agree n ρ (ρ.with n k v p) := by
  intro i hi
  simp only [Env.with]
  constructor
  · rw [if_neg (by omega), if_neg (by omega)]
  · rw [if_neg (by omega)]

end Verif.Tool.GhostMap

namespace Verif.Props
open Verif.Tool.GhostMap

/-- C19, for new maps: creating a map keeps every world that was described, with the new map empty; a state with the new map describes only worlds
in which it is empty; and its invariants alone say so. -/
theorem C19_new (fuel : Nat) (st : State) (obj : Nat) : ∃ st', newEmpty fuel st obj = some st' ∧
    (∀ W ρ, Describes st W ρ → ∃ ρ', Agree st.next ρ ρ' ∧ Describes st' (fun o => if o = obj then fun _ => (0, false) else W o) ρ') ∧
    (∀ W ρ, Describes st' W ρ → ∀ k, (st'.contentAt W ρ obj none k).2 = false) ∧
    (∃ inv ∈ (st'.maps obj).invs, ∀ M ρ k v p, inv.sem M ρ k v p = !p) := by
  have hnew := addInv_empty fuel ({ st with next := st.next + 2 }.setMap obj ⟨[], [], .const 0, ⟨.var st.next, .var (st.next + 1), .var st.next⟩, []⟩) obj
  refine ⟨_, hnew, ?_, ?_, ?_⟩
  · intro W ρ h
    have ha := Env.with_agree ρ st.next 0 0 false
    refine ⟨_, ha, ?_, ?_, ?_⟩
    · intro c hc
      rcases List.mem_cons.1 (by simpa [State.setMap, State.add] using hc) with rfl | hc
      · simp [B.den, Env.with]
      · rw [← B.den_congr ha _ (h.within c hc)]
        exact h.sat c hc
    · intro c hc
      rcases List.mem_cons.1 (by simpa [State.setMap, State.add] using hc) with rfl | hc
      · simp [State.setMap, State.add, B.within]
      · exact B.within_mono (by simp [State.setMap, State.add]) _ (h.within c hc)
    · intro o
      by_cases ho : o = obj
      · subst ho
        simp only [State.setMap, State.add, if_true, List.nil_append]
        refine ⟨⟨by simp, trivial, ⟨?_, ?_, ?_⟩, by simp, by simp [IB.pure]⟩, trivial, by simp, by simp [BaseOk], by simp [Untouched], ?_, by simp, ?_, ?_⟩
        · show st.next < st.next + 2; omega
        · show st.next + 1 < st.next + 2; omega
        · show st.next < st.next + 2; omega
        · simp [Item.ok, E.den, B.den, Env.with]
        · intro inv hinv k _
          simp only [List.mem_singleton] at hinv
          subst hinv
          rfl
        · intro d
          exact ⟨∅, by simp [content], by simp [lengthOf, E.den], by simp⟩
      · simp only [State.setMap, State.add, if_neg ho]
        exact (h.maps o).congr (by simp) ha
  · intro W ρ h k
    obtain ⟨S, h1, h2, -⟩ := (h.maps obj).length 0
    have hl : S.card = 0 := by
      rw [← h2]
      simp [State.setMap, State.add, lengthOf, E.den]
    rw [Finset.card_eq_zero] at hl
    subst hl
    have := (h1 k).2
    simpa [State.contentAt, State.setMap, State.add, skip] using this
  · exact ⟨.not .present, by simp [State.setMap, State.add], fun M ρ k v p => rfl⟩

/-- C19, for new arrays: creating an array keeps every world that was described, with any values in the array; a state with the new array describes only worlds
in which exactly the keys below its length are present. -/
theorem C19_new_array (fuel : Nat) (st : State) (obj : Nat) (length : E) (hw : length.within st.next) : ∃ st', newArray fuel st obj length = some st' ∧
    (∀ W ρ (f : Nat → Nat), Describes st W ρ → length.den ρ < 2 ^ 64 → ∃ ρ', Agree st.next ρ ρ' ∧
      Describes st' (fun o => if o = obj then fun k => (f k, decide (k < length.den ρ)) else W o) ρ') ∧
    (∀ W ρ, Describes st' W ρ → ∀ k, (st'.contentAt W ρ obj none k).2 = decide (k < length.den ρ)) := by
  have hnew := addInv_array fuel ({ st with next := st.next + 2 }.setMap obj ⟨[], [], length, ⟨.var st.next, .var (st.next + 1), .var st.next⟩, []⟩) obj length
  refine ⟨_, hnew, ?_, ?_⟩
  · intro W ρ f h hlen
    have ha := Env.with_agree ρ st.next 0 (f 0) (decide (0 < length.den ρ))
    have hden : length.den (ρ.with st.next 0 (f 0) (decide (0 < length.den ρ))) = length.den ρ := (E.den_congr ha _ hw).symm
    refine ⟨_, ha, ?_, ?_, ?_⟩
    · intro c hc
      rcases List.mem_cons.1 (by simpa [State.setMap, State.add] using hc) with rfl | hc
      · simp only [State.setMap, B.den, E.den, hden]
        simp [Env.with]
      · rw [← B.den_congr ha _ (h.within c hc)]
        exact h.sat c hc
    · intro c hc
      rcases List.mem_cons.1 (by simpa [State.setMap, State.add] using hc) with rfl | hc
      · simp only [State.setMap, State.add, B.within, E.within, if_true]
        exact ⟨⟨by omega, E.within_mono (by omega) _ hw⟩, by omega⟩
      · exact B.within_mono (by simp [State.setMap, State.add]) _ (h.within c hc)
    · intro o
      by_cases ho : o = obj
      · subst ho
        simp only [State.setMap, State.add, if_true, List.nil_append]
        refine ⟨⟨by simp, E.within_mono (by simp) _ hw, ⟨?_, ?_, ?_⟩, by simp, ?_⟩, trivial, by simp, by simp [BaseOk], by simp [Untouched], ?_, by simp, ?_, ?_⟩
        · show st.next < st.next + 2; omega
        · show st.next + 1 < st.next + 2; omega
        · show st.next < st.next + 2; omega
        · intro inv hinv
          simp only [List.mem_singleton] at hinv
          subst hinv
          exact ⟨⟨trivial, E.within_mono (by simp) _ hw⟩, trivial⟩
        · simp [Item.ok, E.den, B.den, Env.with]
        · intro inv hinv k _
          simp only [List.mem_singleton] at hinv
          subst hinv
          simp [IB.sem, IE.sem, hden]
        · intro d
          refine ⟨Finset.range (length.den ρ), by simp [content], by simp [lengthOf, hden], by simpa using hlen⟩
      · simp only [State.setMap, State.add, if_neg ho]
        exact (h.maps o).congr (by simp) ha
  · intro W ρ h k
    have := (h.maps obj).invs (.iff (.rel (fun x y => decide (x < y)) .key (.lift length)) .present) (by simp [State.setMap, State.add]) k
      (by simp [State.setMap, State.add])
    have := beq_iff_eq.1 this
    rw [show decide (k < length.den ρ) = _ from this]
    simp [State.contentAt, State.setMap, State.add, content, IB.sem]

/-- The states of C19's example have a world, so new maps can be created from them. -/
example : ∃ st st', newEmpty 1 st 0 = some st' ∧ ∃ W ρ, Describes st' W ρ := by
  obtain ⟨st', h1, h2, -⟩ := C19_new 1 ⟨[], 2, fun _ => ⟨[], [], .const 0, ⟨.var 0, .var 1, .var 0⟩, []⟩⟩ 0
  obtain ⟨ρ', -, h3⟩ := h2 (fun _ _ => (0, false)) ⟨fun _ => 0, fun _ => false⟩
    ⟨by simp [sat], by simp, fun o => ⟨⟨by simp, trivial, ⟨by simp [E.within], by simp [E.within], by simp [B.within]⟩, by simp, by simp⟩, trivial, by simp,
      by simp [BaseOk], by simp [Untouched], rfl, by simp, by simp, fun d => ⟨∅, by simp [content], by simp [lengthOf, E.den], by simp⟩⟩⟩
  exact ⟨_, st', h1, _, ρ', h3⟩

end Verif.Props
