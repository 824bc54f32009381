/- Property C83: the DHCP server on the code of its data structures. -/
import Verif.Nf.LowDhcpProofs
import Verif.Props.Dhcp
import Verif.Props.Low

set_option autoImplicit false

namespace Verif.Props
open Verif.Nf Verif.Nf.Dhcp
open Verif.Nf.Low (Layout)
open LowSpec

/-- An address outside of the array of clients' addresses, 6 bytes each. -/
def dhcpOutside (l : Layout) (a : Nat) : Prop := a < l.keys ∨ l.keys + 6 * l.size ≤ a

/-- The 248 bytes of the header and the 34 bytes where its pointer to options leads are not in the
array of clients' addresses. -/
def dhcpClear (l : Layout) (x : DhcpMessage) : Prop :=
  (∀ i < 248, dhcpOutside l (x.2.1 + i)) ∧ ∀ i < 34, dhcpOutside l (dhcpOptions x.1 x.2.1 + i)

private theorem clear_of {l : Layout} (hks : l.ks = 6) {x : DhcpMessage} (h : dhcpClear l x) (hne : 0 < l.size) :
    Low.Dhcp.Clear l x.1 x.2.1 := by
  obtain ⟨h1, h2⟩ := h
  unfold Low.Dhcp.Clear
  rw [hks, dhcpOptions_eq]
  unfold dhcpOutside at h1 h2
  constructor
  · by_contra hc
    push Not at hc
    rcases Nat.lt_or_ge x.2.1 l.keys with h | h
    · have := h1 (l.keys - x.2.1) (by omega); omega
    · have := h1 0 (by omega); omega
  · generalize dhcpOptions x.1 x.2.1 = o at *
    by_contra hc
    push Not at hc
    rcases Nat.lt_or_ge o l.keys with h | h
    · have := h2 (l.keys - o) (by omega); omega
    · have := h2 0 (by omega); omega

private theorem fill_length {server gateway dns limit : Nat} : ∀ (fuel next index : Nat) (arr r : List Nat),
    fill server gateway dns limit fuel next index arr = some r → r.length = arr.length := by
  intro fuel
  induction fuel with
  | zero => intro _ _ _ _ h; cases h
  | succ n ih =>
    intro next index arr r h
    unfold fill at h
    split at h
    · split at h
      · split at h
        · split at h
          · cases h; simp
          · rw [ih _ _ _ _ h]; simp
        · cases h
      · split at h
        · cases h; rfl
        · exact ih _ _ _ _ h
    · cases h; rfl

private theorem setup_table {c a m g d e t : Nat} {s : Server} (h : setup c a m g d e t = some (some s)) :
    Table.alloc (List.replicate 6 0) s.ips.length s.exp = some s.table := by
  unfold setup at h
  dsimp only at h
  generalize (if (2 ^ 32 - 1 - m + 2 ^ 64 - 4) % 2 ^ 64 < c then (2 ^ 32 - 1 - m + 2 ^ 64 - 4) % 2 ^ 64 else c) = C at h
  by_cases h0 : C = 0
  · rw [if_pos h0] at h; cases h
  · rw [if_neg h0] at h
    simp only [Option.bind_eq_bind, Option.bind_eq_some_iff, Option.some.injEq] at h
    obtain ⟨tb, h1, ips, h2, rfl⟩ := h
    have := fill_length _ _ _ _ _ h2
    rw [List.length_replicate] at this
    show Table.alloc _ ips.length e = some tb
    rw [this]; exact h1

private theorem init_table {items : List (List UInt8 × Nat)} (hit : dhcpItems items) {s : Server}
    (h : init items = some (some s)) : Table.alloc (List.replicate 6 0) s.ips.length s.exp = some s.table := by
  rw [dhcp_init_eq hit] at h
  split at h
  · exact setup_table h
  · cases h

/-- The reply to one message depends on the memory only outside of the array. -/
private theorem same_reply {l : Layout} (hks : l.ks = 6) {x : DhcpMessage} (hc : dhcpClear l x) {y y' : Mem × Bool}
    (h : y'.2 = y.2 ∧ Low.Dhcp.Off l y.1 y'.1) :
    (∀ ty, dhcpReplied x y' ty ↔ dhcpReplied x y ty) ∧ dhcpYaddr x y' = dhcpYaddr x y := by
  obtain ⟨h1, h2⟩ := h
  obtain ⟨c1, c2⟩ := hc
  have off : ∀ a, dhcpOutside l a → y'.1 a = y.1 a := by
    intro a ha
    refine h2 a fun ⟨_, _⟩ => ?_
    rw [hks] at *
    unfold dhcpOutside at ha
    omega
  constructor
  · intro ty
    unfold dhcpReplied
    rw [h1, off _ (c2 2 (by omega))]
  · unfold dhcpYaddr dhcpLe32
    have b0 := off _ (c1 16 (by omega))
    have b1 := off _ (c1 17 (by omega))
    have b2 := off _ (c1 18 (by omega))
    have b3 := off _ (c1 19 (by omega))
    simp only [Nat.add_assoc, Nat.reduceAdd, b0, b1, b2, b3]

private theorem leases_congr {l : Layout} (hks : l.ks = 6) {exp : Nat} {ips : List Nat} {msgs : List DhcpMessage}
    {rs rs' : List (Mem × Bool)} (hc : ∀ x ∈ msgs, dhcpClear l x)
    (hf : List.Forall₂ (fun y y' => y'.2 = y.2 ∧ Low.Dhcp.Off l y.1 y'.1) rs rs') (h : DhcpLeases exp ips msgs rs) :
    DhcpLeases exp ips msgs rs' := by
  obtain ⟨hl, h⟩ := h
  have back : ∀ {i : Nat} {x : DhcpMessage} {y' : Mem × Bool}, msgs[i]? = some x → rs'[i]? = some y' →
      ∃ y, rs[i]? = some y ∧ y'.2 = y.2 ∧ (∀ ty, dhcpReplied x y' ty ↔ dhcpReplied x y ty) ∧ dhcpYaddr x y' = dhcpYaddr x y ∧
        ∀ c a, dhcpGrants x y' c a ↔ dhcpGrants x y c a := by
    intro i x y' hx hy'
    have hi : i < rs.length := by rw [hf.length_eq]; exact (List.getElem?_eq_some_iff.1 hy').1
    have hp := List.Forall₂.get hf hi (by rw [← hf.length_eq]; exact hi)
    obtain ⟨_, hy''⟩ := List.getElem?_eq_some_iff.1 hy'
    simp only [List.get_eq_getElem, hy''] at hp
    obtain ⟨e1, e2⟩ := same_reply hks (hc x (List.mem_of_getElem? hx)) hp
    refine ⟨rs[i], List.getElem?_eq_getElem hi, hp.1, e1, e2, fun c a => ?_⟩
    unfold dhcpGrants
    rw [e1, e1, e2]
  have forth : ∀ {i : Nat} {x : DhcpMessage} {y : Mem × Bool}, msgs[i]? = some x → rs[i]? = some y →
      ∃ y', rs'[i]? = some y' ∧ ∀ c a, dhcpGrants x y' c a ↔ dhcpGrants x y c a := by
    intro i x y hx hy
    have hi : i < rs'.length := by rw [← hf.length_eq]; exact (List.getElem?_eq_some_iff.1 hy).1
    obtain ⟨y2, k1, _, _, _, k2⟩ := back hx (List.getElem?_eq_getElem hi)
    rw [hy] at k1; cases k1
    exact ⟨rs'[i], List.getElem?_eq_getElem hi, k2⟩
  refine ⟨by rw [← hf.length_eq, hl], fun j x y' hx hy' => ?_⟩
  obtain ⟨y, hy, e0, e1, e2, e3⟩ := back hx hy'
  obtain ⟨g1, g2, g3, g4, g5, g6, g7⟩ := h j x y hx hy
  refine ⟨?_, ?_, ?_, ?_, ?_, ?_, ?_⟩
  · intro i x' z' c c' a hij hx' hz' hg' hg hne
    obtain ⟨z, hz, _, _, _, e3'⟩ := back hx' hz'
    exact g1 i x' z c c' a hij hx' hz ((e3' _ _).1 hg') ((e3 _ _).1 hg) hne
  · intro c a hg; exact g2 c a ((e3 _ _).1 hg)
  · intro i x' z' a hij hx' hz' hg' hle
    obtain ⟨z, hz, _, _, _, e3'⟩ := back hx' hz'
    simp only [e1, e2]
    exact g3 i x' z a hij hx' hz ((e3' _ _).1 hg') hle
  · intro hd hb a ha
    obtain ⟨i, x', z, c', hij, hx', hz, hg, hle⟩ := g4 hd (by rw [← e0]; exact hb) a ha
    obtain ⟨z', hz', k⟩ := forth hx' hz
    exact ⟨i, x', z', c', hij, hx', hz', (k _ _).2 hg, hle⟩
  · intro hr hno
    rw [e0]
    refine g5 hr fun i x' z a hij hx' hz hg => ?_
    obtain ⟨z', hz', k⟩ := forth hx' hz
    exact hno i x' z' a hij hx' hz' ((k _ _).2 hg)
  · simp only [e1, e2]; exact g6
  · simp only [e1]; exact g7

/-- C83: on the code of the map and the pool, with clients as bytes in the memory that holds the
messages, and whatever else changes that memory between messages, the DHCP server never accesses
its arrays out of bounds, and its leases are as C63 says.
Missing from the full claim: messages whose pointer to options leads into the array of clients;
it is false of those, see `C83_pointer_wrong`. -/
theorem C83_leases_partial (l : Layout) (hl : Placed l 6) (mem : Mem) (items : List (List UInt8 × Nat))
    (hit : dhcpItems items) (st : Server) (hs : init items = some (some st)) (hsize : l.size = st.ips.length)
    (k : Nat) (h3 : 3 ≤ k) (hk : k ≤ 32) (hm : st.mask = 2 ^ 32 - 2 ^ k)
    (msgs : List DhcpMessage) (hmsg : DhcpMessages msgs) (hc : ∀ x ∈ msgs, dhcpClear l x) :
    ∃ s s' rs, Low.Dhcp.init l mem items = some (some s) ∧ Low.Dhcp.run l s msgs = some (s', rs) ∧
      DhcpLeases st.exp st.ips msgs rs := by
  obtain ⟨t', rs, h1, h2⟩ := C63_leases items hit st hs k h3 hk hm msgs hmsg
  have hal := init_table hit hs
  rw [← hsize] at hal
  have hks := hl.1
  obtain ⟨s, h4, h5⟩ := Low.sim_alloc (V := Low.Dhcp.V) (enc := fun k => k) (l := l) (zero := List.replicate 6 0)
    (by simp [Low.Dhcp.V]) (by rw [hks]) hl.size mem st.exp hal
  have hpos : 0 < l.size ∨ l.size = 0 := by omega
  rcases hpos with hpos | h0
  · obtain ⟨s', rs', h6, h7⟩ := Low.Dhcp.run_sim (hl.fits (by omega)) hks msgs (s := ⟨st, s⟩) (t := st) ⟨⟨st.table, rfl⟩, h5⟩
      (fun x hx => ⟨clear_of hks (hc x hx) hpos, by
        have := hmsg.apart x hx
        unfold dhcpApart at this; unfold Apart; rw [dhcpOptions_eq]; exact this⟩) h1
    exact ⟨⟨st, s⟩, s', rs', by simp [Low.Dhcp.init, hs, h4], h6, leases_congr hks hc h7 h2⟩
  · exfalso
    rw [hsize] at h0
    obtain ⟨r, e1, e2, e3⟩ := C63_init items hit
    rw [hs] at e1; cases e1
    obtain ⟨_, _, _, _, _, e4, _⟩ := e3 st rfl
    omega

/-- A client's demand for an address at header 0 with options at 1000, as `dhcpMsg`, for the client
0:0:1:0:0:9. -/
def dhcpAttacker : DhcpMessage := (fun x => if x = 1008 then 1 else (dhcpMsg 1 9 0 5).1 x, 0, 5)

/-- A message whose pointer to options is 4096. -/
def dhcpAttack : DhcpMessage := (fun x => if x = 0 then 1 else if x = 241 then 0x10 else 0, 0, 7)

/-- An array of ten clients at 4096. -/
def dhcpPlace : Layout := ⟨4096, 6, 10, 0, 2048⟩

/-- The replies of a run: whether there is one, the type at the options, and the address. -/
def lowDhcpRun (l : Layout) (items : List (List UInt8 × Nat)) (msgs : List DhcpMessage) :
    Option (List (Bool × UInt8 × Nat)) := do
  match ← Low.Dhcp.init l (fun _ => 0) items with
  | none => none
  | some s =>
    let (_, rs) ← Low.Dhcp.run l s msgs
    some ((msgs.zip rs).map fun z => (z.2.2, z.2.1 (dhcpOptions z.1.1 z.1.2.1 + 2), dhcpYaddr z.1 z.2))

/-- The hypotheses of `C83_leases_partial` hold of messages that get an offer, a confirmation and a
denial. -/
example : Placed dhcpPlace 6 ∧ dhcpItems (dhcpSample (2 ^ 32 - 2 ^ 8) 10) ∧
    (∃ st, init (dhcpSample (2 ^ 32 - 2 ^ 8) 10) = some (some st) ∧ dhcpPlace.size = st.ips.length ∧ st.mask = 2 ^ 32 - 2 ^ 8) ∧
    DhcpMessages [dhcpMsg 1 7 0 5, dhcpMsg 3 7 3221357059 6, dhcpMsg 3 7 3221357306 6] ∧
    (∀ x ∈ [dhcpMsg 1 7 0 5, dhcpMsg 3 7 3221357059 6, dhcpMsg 3 7 3221357306 6], dhcpClear dhcpPlace x) ∧
    lowDhcpRun dhcpPlace (dhcpSample (2 ^ 32 - 2 ^ 8) 10) [dhcpMsg 1 7 0 5, dhcpMsg 3 7 3221357059 6, dhcpMsg 3 7 3221357306 6] =
      some [(true, 2, 3221357059), (true, 5, 3221357059), (true, 6, 0)] := by
  refine ⟨by simp [Placed, dhcpPlace], dhcpSample_items (by omega) (by omega), ⟨_, rfl, rfl, rfl⟩, ⟨by simp [dhcpMsg], by simp [dhcpMsg], ?_⟩, ?_, by decide +kernel⟩
  · intro x hx
    simp only [List.mem_cons, List.not_mem_nil, or_false] at hx
    rcases hx with rfl | rfl | rfl <;>
      (unfold dhcpApart; right; show 0 + 248 ≤ dhcpOptions (dhcpMsg _ _ _ _).1 0; rw [dhcpMsg_options]; omega)
  · intro x hx
    simp only [List.mem_cons, List.not_mem_nil, or_false] at hx
    rcases hx with rfl | rfl | rfl <;>
      (refine ⟨fun i hi => .inl (show 0 + i < 4096 by omega), fun i hi => .inl ?_⟩
       show dhcpOptions (dhcpMsg _ _ _ _).1 0 + i < 4096
       rw [dhcpMsg_options]; omega)

/-- Disagreement: one message with a pointer to options into the array of clients makes the server
overwrite it with its reply. Client 0:0:0:0:0:8 was offered an address one time unit before; its
request for that address is then left unanswered, and when it asks again it is offered another,
whereas without that message its request is confirmed and it is offered the same address. The
attacker has sent an ordinary demand before, so that the third byte of the first entry is 1. -/
theorem C83_pointer_wrong :
    Placed dhcpPlace 6 ∧ dhcpItems (dhcpSample (2 ^ 32 - 2 ^ 8) 10) ∧
    DhcpMessages [dhcpAttacker, dhcpMsg 1 8 0 6, dhcpAttack, dhcpMsg 3 8 3221357060 8, dhcpMsg 1 8 0 9] ∧
    lowDhcpRun dhcpPlace (dhcpSample (2 ^ 32 - 2 ^ 8) 10)
        [dhcpAttacker, dhcpMsg 1 8 0 6, dhcpAttack, dhcpMsg 3 8 3221357060 8, dhcpMsg 1 8 0 9] =
      some [(true, 2, 3221357059), (true, 2, 3221357060), (true, 2, 3221357060), (false, 3, 0), (true, 2, 3221357061)] ∧
    lowDhcpRun dhcpPlace (dhcpSample (2 ^ 32 - 2 ^ 8) 10)
        [dhcpAttacker, dhcpMsg 1 8 0 6, dhcpMsg 3 8 3221357060 8, dhcpMsg 1 8 0 9] =
      some [(true, 2, 3221357059), (true, 2, 3221357060), (true, 5, 3221357060), (true, 2, 3221357060)] := by
  refine ⟨by simp [Placed, dhcpPlace], dhcpSample_items (by omega) (by omega),
    ⟨by simp [dhcpMsg, dhcpAttacker, dhcpAttack], by simp [dhcpMsg, dhcpAttacker, dhcpAttack], ?_⟩, by decide +kernel, by decide +kernel⟩
  intro x hx
  simp only [List.mem_cons, List.not_mem_nil, or_false] at hx
  rcases hx with rfl | rfl | rfl | rfl | rfl
  · right; decide
  · right; show 0 + 248 ≤ dhcpOptions (dhcpMsg _ _ _ _).1 0; rw [dhcpMsg_options]; omega
  · right; decide
  · right; show 0 + 248 ≤ dhcpOptions (dhcpMsg _ _ _ _).1 0; rw [dhcpMsg_options]; omega
  · right; show 0 + 248 ≤ dhcpOptions (dhcpMsg _ _ _ _).1 0; rw [dhcpMsg_options]; omega

/-- An offer to a new client does happen: the state has no client, and the message is not in the array. -/
example : ∃ s, Low.Dhcp.init dhcpPlace (dhcpMsg 1 7 0 5).1 (dhcpSample (2 ^ 32 - 2 ^ 8) 10) = some (some s) ∧
    dhcpApart (s.table.mem, 0, 5) ∧ dhcpClear dhcpPlace (s.table.mem, 0, 5) ∧
    (Low.Dhcp.serve dhcpPlace s 0 5).map (·.2) = some true := by
  refine ⟨_, rfl, ?_, ?_, ?_⟩
  · right; decide
  · refine ⟨fun i hi => .inl (show 0 + i < 4096 by omega), fun i hi => .inl ?_⟩
    show 1000 + i < 4096
    omega
  · decide +kernel

/-- C83 (replies): whatever the state, an answered message apart from the array of clients gets the
reply that C63 describes, up to the new client's entry in the array (`m0`); no other byte of the
memory changes. -/
theorem C83_replies (l : Layout) (hl : Placed l 6) (s s' : Low.Dhcp.Server) (h time : Nat) (hpos : 0 < l.size)
    (ha : dhcpApart (s.table.mem, h, time)) (hc : dhcpClear l (s.table.mem, h, time))
    (hr : Low.Dhcp.serve l s h time = some (s', true)) :
    ∃ m0 : Mem, (∀ a, dhcpOutside l a → m0 a = s.table.mem a) ∧
      ((dhcpIs (s.table.mem, h, time) 1 ∧ DhcpPositive s.statics (m0, h, time) s'.table.mem 2) ∨
       (dhcpIs (s.table.mem, h, time) 3 ∧ m0 = s.table.mem ∧ DhcpPositive s.statics (m0, h, time) s'.table.mem 5) ∨
       (dhcpIs (s.table.mem, h, time) 3 ∧ m0 = s.table.mem ∧
        s'.table.mem (dhcpOptions m0 h + 2) = 6 ∧ s'.table.mem (dhcpOptions m0 h + 3) = 255 ∧
        ∀ a, a ≠ dhcpOptions m0 h + 2 → a ≠ dhcpOptions m0 h + 3 → s'.table.mem a = m0 a)) := by
  have hks := hl.1
  have hcl := clear_of hks hc hpos
  have hap : Apart s.table.mem h := by unfold Apart; rw [dhcpOptions_eq]; exact ha
  have keep : ∀ m0 : Mem, Low.Dhcp.Off l s.table.mem m0 → ∀ a, dhcpOutside l a → m0 a = s.table.mem a := by
    intro m0 h0 a ha
    refine h0 a fun ⟨_, _⟩ => ?_
    rw [hks] at *
    unfold dhcpOutside at ha
    omega
  have same : ∀ {t : Low.State} {i : Nat}, Low.refresh s.table time i = some t → t.mem = s.table.mem := by
    intro t i ht
    simp only [Low.refresh, Option.bind_eq_bind, Option.bind_eq_some_iff, Option.some.injEq] at ht
    obtain ⟨_, _, rfl⟩ := ht
    rfl
  have ok : ∀ (t : Low.State) (i : Nat), Low.Dhcp.Off l s.table.mem t.mem → Low.Dhcp.reply s t h i = some (s', true) →
      DhcpPositive s.statics (t.mem, h, time) s'.table.mem 2 := by
    intro t i ho hrp
    simp only [Low.Dhcp.reply, Option.bind_eq_bind, Option.bind_eq_some_iff, Option.some.injEq, Prod.mk.injEq, and_true] at hrp
    obtain ⟨ip, _, rfl⟩ := hrp
    refine dhcpPositive_of (offer_spec s.statics t.mem h ip ?_)
    unfold Apart; rw [ho.cOptions hcl.1]; exact hap
  unfold Low.Dhcp.serve at hr
  by_cases hd : isDiscover s.table.mem h = true
  · rw [if_pos hd] at hr
    have hi := (dhcpIs_discover (s.table.mem, h, time)).1 hd
    simp only [Low.Dhcp.discover, Option.bind_eq_bind, Option.bind_eq_some_iff] at hr
    obtain ⟨g, hg, hr⟩ := hr
    cases g with
    | some i =>
      simp only [Option.bind_eq_some_iff] at hr
      obtain ⟨t, h1, h2⟩ := hr
      have ho : Low.Dhcp.Off l s.table.mem t.mem := by rw [same h1]; exact fun _ _ => rfl
      exact ⟨t.mem, keep _ ho, .inl ⟨hi, ok t i ho h2⟩⟩
    | none =>
      simp only [Option.bind_eq_some_iff] at hr
      obtain ⟨⟨t, ix⟩, h1, h2⟩ := hr
      cases ix with
      | none => simp at h2
      | some i =>
        have ho : Low.Dhcp.Off l s.table.mem t.mem := by
          obtain ⟨_, c2⟩ := hcl
          dsimp only at c2
          simp only [Low.Dhcp.insert, Option.bind_eq_bind, Option.bind_eq_some_iff] at h1
          obtain ⟨⟨pool, z⟩, _, h1⟩ := h1
          cases z with
          | none => simp at h1
          | some z =>
            obtain ⟨j, w⟩ := z
            simp only [Option.bind_eq_some_iff] at h1
            obtain ⟨mp, _, mm, h3, mp', _, h4⟩ := h1
            simp only [Option.some.injEq, Prod.mk.injEq] at h4
            obtain ⟨rfl, _⟩ := h4
            rw [Low.Dhcp.copyKey_eq _ _ _ hks (by omega)] at h3
            unfold Low.assign at h3
            split at h3
            · rename_i hj
              cases h3
              intro x hx
              have h5 := Low.cell_le hj
              have h6 : l.keys ≤ l.cell j := by unfold Low.Layout.cell; omega
              show (if l.cell j ≤ x ∧ x < l.cell j + l.ks then _ else s.table.mem x) = _
              rw [if_neg]
              rintro ⟨_, _⟩
              exact hx ⟨by omega, by omega⟩
            · cases h3
        exact ⟨t.mem, keep _ ho, .inl ⟨hi, ok t i ho h2⟩⟩
  · rw [if_neg hd] at hr
    by_cases hq : isRequest s.table.mem h = true
    · rw [if_pos hq] at hr
      have hi := (dhcpIs_request (s.table.mem, h, time)).1 hq
      refine ⟨s.table.mem, fun _ _ => rfl, .inr ?_⟩
      simp only [Low.Dhcp.request, Option.bind_eq_bind, Option.bind_eq_some_iff] at hr
      obtain ⟨g, hg, hr⟩ := hr
      cases g with
      | none => simp at hr
      | some i =>
        simp only [Option.bind_eq_some_iff] at hr
        obtain ⟨ip, _, hr⟩ := hr
        by_cases he : ip = ld32 s.table.mem (options s.table.mem h + 14)
        · simp only [if_pos he, Option.bind_eq_some_iff, Option.some.injEq, Prod.mk.injEq, and_true] at hr
          obtain ⟨t, h1, rfl⟩ := hr
          refine .inl ⟨hi, rfl, ?_⟩
          show DhcpPositive s.statics _ (createAck s.statics t.mem h ip) 5
          rw [same h1]
          exact dhcpPositive_of (createAck_spec s.statics s.table.mem h ip hap)
        · simp only [if_neg he, Option.some.injEq, Prod.mk.injEq, and_true] at hr
          obtain rfl := hr
          refine .inr ⟨hi, rfl, ?_, ?_, ?_⟩
          · rw [← dhcpOptions_eq]; exact setNack_spec _ _
          · rw [← dhcpOptions_eq]; exact store_eq _ _ _
          · intro a h1 h2
            rw [← dhcpOptions_eq] at h1 h2
            show setNack _ _ a = _
            simp only [setNack]
            rw [store_ne h2, store_ne h1]
    · rw [if_neg hq] at hr
      simp at hr

end Verif.Props
