/- Ways through a network of bridges, for property C73. -/
import Verif.Props.BridgeNetProofs
import Mathlib.Data.List.Nodup

set_option autoImplicit false

namespace Verif.Props.Networked
open Verif.Nf.BridgeNet
open Verif.BridgeNetSpec (Wired Route LoopFree Linked)

variable {net : Net}

theorem route_tail {e : Port} {b d : Nat} {r : List Port} (h : Route net (e :: (b, d) :: r)) :
    Route net ((b, d) :: r) ∧ ∃ o, o ≠ d ∧ net.link (b, o) = some e := by
  cases h with
  | next o e h1 h2 h3 => exact ⟨h1, o, h2, h3⟩

theorem route_suffix : ∀ (x : List Port) {b d : Nat} {r : List Port}, Route net (x ++ (b, d) :: r) → Route net ((b, d) :: r)
  | [], _, _, _, h => h
  | [_], _, _, _, h => (route_tail h).1
  | _ :: e' :: x, _, _, _, h => route_suffix (e' :: x) (route_tail (b := e'.1) (d := e'.2) h).1

/-- Going back along a way from another device of its last bridge. -/
theorem route_back (w : Wired net) : ∀ (x : List Port) (b d o b' d' : Nat) (y : List Port), Route net (x ++ (b', d') :: y) →
    (x ++ (b', d') :: y).head? = some (b, d) → o ≠ d →
    ∃ o' z, o' ≠ d' ∧ Route net ((b', o') :: z) ∧ ((b', o') :: z).getLast? = some (b, o) ∧
      ((x = [] ∧ b' = b ∧ o' = o) ∨ ∃ x0 e, x = x0 ++ [e] ∧ net.link (b', o') = some e) := by
  intro x
  induction x using List.reverseRecOn with
  | nil =>
    intro b d o b' d' y _ h2 h3
    simp only [List.nil_append, List.head?_cons, Option.some.injEq, Prod.mk.injEq] at h2
    obtain ⟨rfl, rfl⟩ := h2
    exact ⟨o, [], h3, .first _, rfl, .inl ⟨rfl, rfl, rfl⟩⟩
  | append_singleton x e ih =>
    intro b d o b' d' y h1 h2 h3
    obtain ⟨b1, d1⟩ := e
    rw [List.append_assoc] at h1 h2
    obtain ⟨o1, z, h4, h5, h6, _⟩ := ih b d o b1 d1 _ h1 h2 h3
    obtain ⟨_, o', h7, h8⟩ := route_tail (route_suffix x h1)
    refine ⟨o', (b1, o1) :: z, h7, .next d1 _ h5 (Ne.symm h4) (w.sym _ _ h8), ?_, .inr ⟨x, _, rfl, h8⟩⟩
    rw [List.getLast?_cons_cons]; exact h6

/-- Following a way back extends another way to the same bridge. -/
theorem route_extend (w : Wired net) : ∀ (t2 : List Port) (b d1 d2 : Nat) (t1 : List Port), Route net ((b, d1) :: t1) →
    Route net ((b, d2) :: t2) → d1 ≠ d2 → ∀ p, ((b, d2) :: t2).getLast? = some p →
    ∃ x q, Route net (x ++ (b, d1) :: t1) ∧ (x ++ (b, d1) :: t1).head? = some q ∧ q.1 = p.1 ∧ (t2 ≠ [] → x ≠ []) := by
  intro t2
  induction t2 with
  | nil =>
    intro b d1 d2 t1 h1 _ _ p hp
    simp only [List.getLast?_singleton, Option.some.injEq] at hp
    subst hp
    exact ⟨[], (b, d1), h1, rfl, rfl, fun h => absurd rfl h⟩
  | cons e t2 ih =>
    intro b d1 d2 t1 h1 h2 hne p hp
    obtain ⟨b2, d2'⟩ := e
    obtain ⟨h3, o, h4, h5⟩ := route_tail h2
    have h6 : Route net ((b2, o) :: (b, d1) :: t1) := .next d2 _ h1 (Ne.symm hne) (w.sym _ _ h5)
    rw [List.getLast?_cons_cons] at hp
    obtain ⟨x, q, h7, h8, h9, _⟩ := ih b2 o d2' _ h6 h3 h4 p hp
    exact ⟨x ++ [(b2, o)], q, by simpa using h7, by simpa using h8, h9, fun _ => by simp⟩

theorem not_nodup_ends {r : List Port} {q p : Port} (hd : r.head? = some q) (hl : r.getLast? = some p) (h : q.1 = p.1)
    (hlen : 2 ≤ r.length) : ¬ (r.map Prod.fst).Nodup := by
  intro hn
  match r, hlen with
  | a :: a' :: r, _ =>
    simp only [List.head?_cons, Option.some.injEq] at hd
    subst hd
    rw [List.getLast?_cons_cons] at hl
    have : p ∈ a' :: r := List.mem_of_getLast? hl
    rw [List.map_cons, List.nodup_cons] at hn
    exact hn.1 (by rw [h]; exact List.mem_map_of_mem this)

/-- Without loops there is only one way from a device to a bridge. -/
theorem route_unique (w : Wired net) (lf : LoopFree net) : ∀ (t1 t2 : List Port) (b d1 d2 : Nat) (p : Port),
    Route net ((b, d1) :: t1) → Route net ((b, d2) :: t2) → ((b, d1) :: t1).getLast? = some p →
    ((b, d2) :: t2).getLast? = some p → d1 = d2 ∧ t1 = t2 := by
  intro t1
  induction t1 with
  | nil =>
    intro t2 b d1 d2 p h1 h2 h3 h4
    simp only [List.getLast?_singleton, Option.some.injEq] at h3
    subst h3
    cases t2 with
    | nil =>
      simp only [List.getLast?_singleton, Option.some.injEq, Prod.mk.injEq] at h4
      exact ⟨h4.2.symm, rfl⟩
    | cons e t2 => exact absurd (lf _ h2) (not_nodup_ends rfl h4 rfl (by simp))
  | cons e t1 ih =>
    intro t2 b d1 d2 p h1 h2 h3 h4
    cases t2 with
    | nil =>
      simp only [List.getLast?_singleton, Option.some.injEq] at h4
      subst h4
      exact absurd (lf _ h1) (not_nodup_ends rfl h3 rfl (by simp))
    | cons e' t2 =>
      by_cases hd : d1 = d2
      · subst hd
        obtain ⟨b1, e1⟩ := e
        obtain ⟨b2, e2⟩ := e'
        obtain ⟨h5, o1, _, h7⟩ := route_tail h1
        obtain ⟨h5', o2, _, h7'⟩ := route_tail h2
        have := (w.sym _ _ h7).symm.trans (w.sym _ _ h7')
        simp only [Option.some.injEq, Prod.mk.injEq] at this
        obtain ⟨rfl, rfl⟩ := this
        rw [List.getLast?_cons_cons] at h3 h4
        obtain ⟨rfl, rfl⟩ := ih t2 b1 e1 e2 p h5 h5' h3 h4
        exact ⟨rfl, rfl⟩
      · exfalso
        obtain ⟨x, q, h5, h6, h7, h8⟩ := route_extend w _ b d1 d2 _ h1 h2 hd p h4
        refine absurd (lf _ h5) (not_nodup_ends h6 (p := p) ?_ h7 ?_)
        · rw [List.getLast?_append_cons, h3]
        · simp; omega

end Verif.Props.Networked
