import Verif.Tool.Texts
import Mathlib.Data.List.Basic
set_option autoImplicit false

namespace Verif.Props
open Verif.Texts

/-! ## C102: the text of a condition -/

/-- A character that may occur in the name of a symbol of the tool: not one of those
`pretty_print` puts between names. -/
def C102_NameChar (c : Char) : Prop := c ≠ ' ' ∧ c ≠ '(' ∧ c ≠ ')' ∧ c ≠ '!'

/-- The names claripy gives to the symbols it numbers itself: something, then `_-1`. -/
def C102_Name (s : List Char) : Prop :=
  ∃ n, n ≠ [] ∧ (∀ c ∈ n, C102_NameChar c) ∧ s = n ++ ['_', '-', '1']

/-- Conditions made of such symbols with "not" and with "and" and "or" of at least two
conditions each. -/
inductive C102_Formula : Cond → Prop
  | boolS {s} : C102_Name s → C102_Formula (.boolS s)
  | not {c} : C102_Formula c → C102_Formula (.not c)
  | and {cs} : 2 ≤ cs.length → (∀ c ∈ cs, C102_Formula c) → C102_Formula (.and cs)
  | or {cs} : 2 ≤ cs.length → (∀ c ∈ cs, C102_Formula c) → C102_Formula (.or cs)

namespace C102

def Stop (s : List Char) : Prop := s = [] ∨ (∃ t, s = ' ' :: t) ∨ ∃ t, s = ')' :: t
def End (s : List Char) : Prop := s = [] ∨ ∃ t, s = ')' :: t
def Sep (s : List Char) : Prop := s = [' ', '&', '&', ' '] ∨ s = [' ', '|', '|', ' ']

theorem End.stop {s} (h : End s) : Stop s := by
  rcases h with h | h
  · exact .inl h
  · exact .inr (.inr h)

theorem Sep.stop {s t} (h : Sep s) : Stop (s ++ t) := by
  rcases h with rfl | rfl <;> exact .inr (.inl ⟨_, rfl⟩)

theorem symbolText_name (n : List Char) : symbolText (n ++ ['_', '-', '1']) = n := by
  have h : "_-1".toList = ['_', '-', '1'] := by decide
  rw [symbolText, h, if_pos (List.suffix_append _ _)]
  simp

theorem names {n n' s s' : List Char} (h : ∀ c ∈ n, C102_NameChar c)
    (h' : ∀ c ∈ n', C102_NameChar c) (hs : Stop s) (hs' : Stop s')
    (e : n ++ s = n' ++ s') : n = n' ∧ s = s' := by
  induction n generalizing n' with
  | nil =>
    cases n' with
    | nil => exact ⟨rfl, e⟩
    | cons a n' =>
      have ha := h' a (by simp)
      rcases hs with rfl | ⟨t, rfl⟩ | ⟨t, rfl⟩ <;> simp at e
      · exact absurd e.1.symm ha.1
      · exact absurd e.1.symm ha.2.2.1
  | cons b n ih =>
    have hb := h b (by simp)
    cases n' with
    | nil =>
      rcases hs' with rfl | ⟨t, rfl⟩ | ⟨t, rfl⟩ <;> simp at e
      · exact absurd e.1 hb.1
      · exact absurd e.1 hb.2.2.1
    | cons a n' =>
      simp only [List.cons_append, List.cons.injEq] at e
      obtain ⟨r, q⟩ := ih (fun c hc => h c (by simp [hc])) (fun c hc => h' c (by simp [hc])) e.2
      exact ⟨by rw [e.1, r], q⟩

theorem inter_cons (sep x y : List Char) (l : List (List Char)) :
    sep.intercalate (x :: y :: l) = x ++ (sep ++ sep.intercalate (y :: l)) := by
  simp [List.intercalate]

theorem inter_one (sep x : List Char) : sep.intercalate [x] = x := by
  simp [List.intercalate]

def Key (e : Cond) : Prop := C102_Formula e → ∀ e' s s', C102_Formula e' → Stop s → Stop s' →
  pretty e true ++ s = pretty e' true ++ s' → e = e' ∧ s = s'

theorem lists (cs : List Cond) (key : ∀ c ∈ cs, Key c) (hf : ∀ c ∈ cs, C102_Formula c)
    (hn : cs ≠ []) (cs' : List Cond) (hf' : ∀ c ∈ cs', C102_Formula c) (hn' : cs' ≠ [])
    (sep sep' t t' : List Char) (hs : Sep sep) (hs' : Sep sep') (ht : End t) (ht' : End t')
    (e : sep.intercalate (prettyAll cs) ++ t = sep'.intercalate (prettyAll cs') ++ t') :
    cs = cs' ∧ t = t' ∧ (2 ≤ cs.length → sep = sep') := by
  induction cs generalizing cs' with
  | nil => exact absurd rfl hn
  | cons c cs ih =>
    cases cs' with
    | nil => exact absurd rfl hn'
    | cons c' cs' =>
      have kc := key c (by simp) (hf c (by simp)) c'
      have hc' := hf' c' (by simp)
      cases cs with
      | nil =>
        cases cs' with
        | nil =>
          simp only [prettyAll, inter_one] at e
          obtain ⟨r, q⟩ := kc _ _ hc' ht.stop ht'.stop e
          exact ⟨by rw [r], q, by simp⟩
        | cons d' cs' =>
          simp only [prettyAll, inter_one, inter_cons, List.append_assoc] at e
          obtain ⟨_, q⟩ := kc _ _ hc' ht.stop hs'.stop e
          rcases ht with rfl | ⟨u, rfl⟩ <;> rcases hs' with rfl | rfl <;> simp at q
      | cons d cs =>
        cases cs' with
        | nil =>
          simp only [prettyAll, inter_one, inter_cons, List.append_assoc] at e
          obtain ⟨_, q⟩ := kc _ _ hc' hs.stop ht'.stop e
          rcases ht' with rfl | ⟨u, rfl⟩ <;> rcases hs with rfl | rfl <;> simp at q
        | cons d' cs' =>
          simp only [prettyAll, inter_cons, List.append_assoc] at e
          obtain ⟨r, q⟩ := kc _ _ hc' hs.stop hs'.stop e
          have hq : sep = sep' ∧ sep.intercalate (prettyAll (d :: cs)) ++ t =
              sep'.intercalate (prettyAll (d' :: cs')) ++ t' := by
            simp only [prettyAll]
            rcases hs with rfl | rfl <;> rcases hs' with rfl | rfl <;> simp at q <;>
              exact ⟨rfl, by simpa using q⟩
          obtain ⟨a, b, _⟩ := ih (fun x hx => key x (by simp [hx])) (fun x hx => hf x (by simp [hx]))
            (by simp) (d' :: cs') (fun x hx => hf' x (by simp [hx])) (by simp) hq.2
          exact ⟨by rw [r, a], b, fun _ => hq.1⟩

theorem amp : " && ".toList = [' ', '&', '&', ' '] := by decide
theorem bar : " || ".toList = [' ', '|', '|', ' '] := by decide
theorem sepA : Sep " && ".toList := .inl amp
theorem sepB : Sep " || ".toList := .inr bar
theorem amp_ne_bar : " && ".toList ≠ " || ".toList := by decide

theorem nested_and (cs : List Cond) (s : List Char) : pretty (.and cs) true ++ s =
    '(' :: (" && ".toList.intercalate (prettyAll cs) ++ (')' :: s)) := by
  simp [pretty, paren]

theorem nested_or (cs : List Cond) (s : List Char) : pretty (.or cs) true ++ s =
    '(' :: (" || ".toList.intercalate (prettyAll cs) ++ (')' :: s)) := by
  simp [pretty, paren]

theorem ne_nil {cs : List Cond} (h : 2 ≤ cs.length) : cs ≠ [] := by
  rintro rfl; simp at h

theorem name_head {n : List Char} (h : n ≠ []) (hc : ∀ c ∈ n, C102_NameChar c)
    {s t : List Char} {x : Char} (e : n ++ s = x :: t) : x ≠ '(' ∧ x ≠ '!' := by
  cases n with
  | nil => exact absurd rfl h
  | cons a n =>
    simp only [List.cons_append, List.cons.injEq] at e
    have := hc a (by simp)
    rw [← e.1]; exact ⟨this.2.1, this.2.2.2⟩

theorem key (e : Cond) : Key e := by
  intro hf e' s s' hf' hs hs' h
  cases e with
  | other t => cases hf
  | boolS nm =>
    cases hf with | boolS hn =>
    obtain ⟨n, n0, hn, rfl⟩ := hn
    simp only [pretty, symbolText_name] at h
    cases hf' with
    | boolS hn' =>
      obtain ⟨n', _, hn', rfl⟩ := hn'
      simp only [pretty, symbolText_name] at h
      obtain ⟨rfl, q⟩ := names hn hn' hs hs' h
      exact ⟨rfl, q⟩
    | not _ => rw [pretty] at h; exact absurd rfl (name_head n0 hn h).2
    | and _ _ => rw [nested_and] at h; exact absurd rfl (name_head n0 hn h).1
    | or _ _ => rw [nested_or] at h; exact absurd rfl (name_head n0 hn h).1
  | not c =>
    cases hf with | not hc =>
    cases hf' with
    | boolS hn' =>
      obtain ⟨n', n0, hn', rfl⟩ := hn'
      simp only [pretty, symbolText_name] at h
      exact absurd rfl (name_head n0 hn' h.symm).2
    | @not c' hc' =>
      simp only [pretty, List.cons_append, List.cons.injEq, true_and] at h
      obtain ⟨r, q⟩ := key c hc c' s s' hc' hs hs' h
      exact ⟨by rw [r], q⟩
    | and _ _ => rw [nested_and] at h; simp [pretty] at h
    | or _ _ => rw [nested_or] at h; simp [pretty] at h
  | and cs =>
    cases hf with | and hl hc =>
    rw [nested_and] at h
    cases hf' with
    | boolS hn' =>
      obtain ⟨n', n0, hn', rfl⟩ := hn'
      simp only [pretty, symbolText_name] at h
      exact absurd rfl (name_head n0 hn' h.symm).1
    | not _ => simp [pretty] at h
    | @and cs' hl' hc' =>
      rw [nested_and] at h
      obtain ⟨r, q, _⟩ := lists cs (fun c _ => key c) hc (ne_nil hl) cs' hc' (ne_nil hl') _ _ _ _
        sepA sepA (.inr ⟨_, rfl⟩) (.inr ⟨_, rfl⟩) (List.cons.inj h).2
      exact ⟨by rw [r], (List.cons.inj q).2⟩
    | @or cs' hl' hc' =>
      rw [nested_or] at h
      obtain ⟨_, _, q⟩ := lists cs (fun c _ => key c) hc (ne_nil hl) cs' hc' (ne_nil hl') _ _ _ _
        sepA sepB (.inr ⟨_, rfl⟩) (.inr ⟨_, rfl⟩) (List.cons.inj h).2
      exact absurd (q hl) amp_ne_bar
  | or cs =>
    cases hf with | or hl hc =>
    rw [nested_or] at h
    cases hf' with
    | boolS hn' =>
      obtain ⟨n', n0, hn', rfl⟩ := hn'
      simp only [pretty, symbolText_name] at h
      exact absurd rfl (name_head n0 hn' h.symm).1
    | not _ => simp [pretty] at h
    | @and cs' hl' hc' =>
      rw [nested_and] at h
      obtain ⟨_, _, q⟩ := lists cs (fun c _ => key c) hc (ne_nil hl) cs' hc' (ne_nil hl') _ _ _ _
        sepB sepA (.inr ⟨_, rfl⟩) (.inr ⟨_, rfl⟩) (List.cons.inj h).2
      exact absurd (q hl).symm amp_ne_bar
    | @or cs' hl' hc' =>
      rw [nested_or] at h
      obtain ⟨r, q, _⟩ := lists cs (fun c _ => key c) hc (ne_nil hl) cs' hc' (ne_nil hl') _ _ _ _
        sepB sepB (.inr ⟨_, rfl⟩) (.inr ⟨_, rfl⟩) (List.cons.inj h).2
      exact ⟨by rw [r], (List.cons.inj q).2⟩
termination_by sizeOf e

/-- At the top a condition is written as its parts. -/
theorem top (e : Cond) (h : C102_Formula e) : ∃ cs sep, cs ≠ [] ∧ (∀ c ∈ cs, C102_Formula c) ∧
    Sep sep ∧ pretty e false = sep.intercalate (prettyAll cs) ∧
    ((cs = [e] ∧ (∀ l, e ≠ .and l) ∧ ∀ l, e ≠ .or l) ∨
      (2 ≤ cs.length ∧ ((e = .and cs ∧ sep = " && ".toList) ∨
        (e = .or cs ∧ sep = " || ".toList)))) := by
  cases h with
  | @boolS s h =>
    exact ⟨[.boolS s], _, by simp, by simp [C102_Formula.boolS h], sepA,
      by simp [prettyAll, pretty], .inl (by simp)⟩
  | @not c h =>
    exact ⟨[.not c], _, by simp, by simp [C102_Formula.not h], sepA,
      by simp [prettyAll, pretty], .inl (by simp)⟩
  | @and cs hl h =>
    exact ⟨cs, _, ne_nil hl, h, sepA, by simp [pretty, paren], .inr ⟨hl, .inl ⟨rfl, rfl⟩⟩⟩
  | @or cs hl h =>
    exact ⟨cs, _, ne_nil hl, h, sepB, by simp [pretty, paren], .inr ⟨hl, .inr ⟨rfl, rfl⟩⟩⟩

end C102

/-- **C102.** Two conditions made of numbered symbols with "not", "and" and "or" that are written
the same are the same, at the top of a label and below. -/
theorem C102_unambiguous_partial (e e' : Cond) (h : C102_Formula e) (h' : C102_Formula e')
    (nested : Bool) (same : pretty e nested = pretty e' nested) : e = e' := by
  cases nested with
  | true => exact (C102.key e h e' [] [] h' (.inl rfl) (.inl rfl) (by simpa using same)).1
  | false =>
    obtain ⟨cs, sep, n, f, hs, p, q⟩ := C102.top e h
    obtain ⟨cs', sep', n', f', hs', p', q'⟩ := C102.top e' h'
    have hl := C102.lists cs (fun c _ => C102.key c) f n cs' f' n' sep sep' [] [] hs hs'
      (.inl rfl) (.inl rfl) (by rw [← p, ← p', same])
    obtain ⟨rfl, -, hsep⟩ := hl
    rcases q with ⟨q, -⟩ | ⟨hl, q⟩ <;> rcases q' with ⟨q', -⟩ | ⟨hl', q'⟩
    · rw [q] at q'; exact (List.cons.inj q').1
    · rw [q] at hl'; simp at hl'
    · rw [q'] at hl; simp at hl
    · rcases q with ⟨rfl, a⟩ | ⟨rfl, a⟩ <;> rcases q' with ⟨rfl, b⟩ | ⟨rfl, b⟩
      · rfl
      · exact absurd (a ▸ b ▸ hsep hl) C102.amp_ne_bar
      · exact absurd (a ▸ b ▸ (hsep hl).symm) C102.amp_ne_bar
      · rfl

mutual
/-- What a condition is worth when the symbols are worth `ρ`. -/
def C102_value (ρ : List Char → Bool) : Cond → Bool
  | .boolS s => ρ s
  | .not c => !C102_value ρ c
  | .and cs => C102_values ρ true cs
  | .or cs => C102_values ρ false cs
  | .other _ => false

/-- "and" (`true`) or "or" (`false`) of what conditions are worth. -/
def C102_values (ρ : List Char → Bool) (conj : Bool) : List Cond → Bool
  | [] => conj
  | c :: cs => if conj then C102_value ρ c && C102_values ρ conj cs
      else C102_value ρ c || C102_values ρ conj cs
end

/-- The three sorts of text a reader can tell apart: an operand, operands joined by `&&`, operands
joined by `||`. -/
inductive C102_Sort
  | operand
  | ands
  | ors

/-- What a reader takes a text to be worth: `!` and parentheses have their usual meaning, `&&` and
`||` are only mixed with parentheses, and a name stands for the symbol of that name. -/
inductive C102_Means (ρ : List Char → Bool) : C102_Sort → List Char → Bool → Prop
  | name {n} : n ≠ [] → (∀ c ∈ n, C102_NameChar c) →
      C102_Means ρ .operand n (ρ (n ++ ['_', '-', '1']))
  | neg {t v} : C102_Means ρ .operand t v → C102_Means ρ .operand ('!' :: t) (!v)
  | inAnds {t v} : C102_Means ρ .ands t v → C102_Means ρ .operand ('(' :: (t ++ [')'])) v
  | inOrs {t v} : C102_Means ρ .ors t v → C102_Means ρ .operand ('(' :: (t ++ [')'])) v
  | and₂ {t u v w} : C102_Means ρ .operand t v → C102_Means ρ .operand u w →
      C102_Means ρ .ands (t ++ ([' ', '&', '&', ' '] ++ u)) (v && w)
  | andMore {t u v w} : C102_Means ρ .operand t v → C102_Means ρ .ands u w →
      C102_Means ρ .ands (t ++ ([' ', '&', '&', ' '] ++ u)) (v && w)
  | or₂ {t u v w} : C102_Means ρ .operand t v → C102_Means ρ .operand u w →
      C102_Means ρ .ors (t ++ ([' ', '|', '|', ' '] ++ u)) (v || w)
  | orMore {t u v w} : C102_Means ρ .operand t v → C102_Means ρ .ors u w →
      C102_Means ρ .ors (t ++ ([' ', '|', '|', ' '] ++ u)) (v || w)

namespace C102

theorem inter_two (sep x y : List Char) : sep.intercalate [x, y] = x ++ (sep ++ y) := by
  rw [inter_cons, inter_one]

theorem ands (ρ : List Char → Bool) (cs : List Cond) (hl : 2 ≤ cs.length)
    (k : ∀ c ∈ cs, C102_Means ρ .operand (pretty c true) (C102_value ρ c)) :
    C102_Means ρ .ands (" && ".toList.intercalate (prettyAll cs)) (C102_values ρ true cs) := by
  induction cs with
  | nil => simp at hl
  | cons c cs ih =>
    cases cs with
    | nil => simp at hl
    | cons d cs =>
      cases cs with
      | nil =>
        have := (k c (by simp)).and₂ (k d (by simp))
        simpa only [prettyAll, inter_two, amp, C102_values, if_true, Bool.and_true] using this
      | cons f cs =>
        have := (k c (by simp)).andMore (ih (by simp) fun x hx => k x (by simp [hx]))
        simp only [prettyAll, inter_cons _ (pretty c true), amp] at this ⊢
        rw [C102_values]; exact this

theorem ors (ρ : List Char → Bool) (cs : List Cond) (hl : 2 ≤ cs.length)
    (k : ∀ c ∈ cs, C102_Means ρ .operand (pretty c true) (C102_value ρ c)) :
    C102_Means ρ .ors (" || ".toList.intercalate (prettyAll cs)) (C102_values ρ false cs) := by
  induction cs with
  | nil => simp at hl
  | cons c cs ih =>
    cases cs with
    | nil => simp at hl
    | cons d cs =>
      cases cs with
      | nil =>
        have := (k c (by simp)).or₂ (k d (by simp))
        simpa [prettyAll, inter_two, bar, C102_values] using this
      | cons f cs =>
        have := (k c (by simp)).orMore (ih (by simp) fun x hx => k x (by simp [hx]))
        simp only [prettyAll, inter_cons _ (pretty c true), bar] at this ⊢
        rw [C102_values]; simpa using this

theorem means (ρ : List Char → Bool) (e : Cond) (h : C102_Formula e) :
    C102_Means ρ .operand (pretty e true) (C102_value ρ e) := by
  induction h with
  | boolS h =>
    obtain ⟨n, n0, hn, rfl⟩ := h
    rw [pretty, symbolText_name, C102_value]
    exact .name n0 hn
  | not _ ih => rw [pretty, C102_value]; exact ih.neg
  | @and cs hl _ ih =>
    have := (ands ρ cs hl ih).inAnds
    simpa [pretty, paren, C102_value] using this
  | @or cs hl _ ih =>
    have := (ors ρ cs hl ih).inOrs
    simpa [pretty, paren, C102_value] using this

/-- Whatever a reader makes of a text is what some condition written so is worth. -/
theorem back (ρ : List Char → Bool) (k : C102_Sort) (t : List Char) (v : Bool)
    (h : C102_Means ρ k t v) : match k with
    | .operand => ∃ e, C102_Formula e ∧ pretty e true = t ∧ C102_value ρ e = v
    | .ands => ∃ cs, 2 ≤ cs.length ∧ (∀ c ∈ cs, C102_Formula c) ∧
        " && ".toList.intercalate (prettyAll cs) = t ∧ C102_values ρ true cs = v
    | .ors => ∃ cs, 2 ≤ cs.length ∧ (∀ c ∈ cs, C102_Formula c) ∧
        " || ".toList.intercalate (prettyAll cs) = t ∧ C102_values ρ false cs = v := by
  induction h with
  | @name n n0 hn =>
    exact ⟨.boolS (n ++ ['_', '-', '1']), .boolS ⟨n, n0, hn, rfl⟩,
      by rw [pretty, symbolText_name], by rw [C102_value]⟩
  | neg _ ih =>
    obtain ⟨e, f, rfl, rfl⟩ := ih
    exact ⟨.not e, .not f, by rw [pretty], by rw [C102_value]⟩
  | inAnds _ ih =>
    obtain ⟨cs, l, f, rfl, rfl⟩ := ih
    exact ⟨.and cs, .and l f, by simp [pretty, paren], by rw [C102_value]⟩
  | inOrs _ ih =>
    obtain ⟨cs, l, f, rfl, rfl⟩ := ih
    exact ⟨.or cs, .or l f, by simp [pretty, paren], by rw [C102_value]⟩
  | and₂ _ _ ih ih' =>
    obtain ⟨e, f, rfl, rfl⟩ := ih
    obtain ⟨e', f', rfl, rfl⟩ := ih'
    exact ⟨[e, e'], by simp, by simp [f, f'], by simp only [prettyAll, inter_two, amp],
      by simp [C102_values]⟩
  | andMore _ _ ih ih' =>
    obtain ⟨e, f, rfl, rfl⟩ := ih
    obtain ⟨cs, l, f', rfl, rfl⟩ := ih'
    refine ⟨e :: cs, by simp; omega, by simpa [f] using f', ?_, by simp [C102_values]⟩
    cases cs with
    | nil => simp at l
    | cons d cs => simp only [prettyAll, inter_cons _ (pretty e true), amp]
  | or₂ _ _ ih ih' =>
    obtain ⟨e, f, rfl, rfl⟩ := ih
    obtain ⟨e', f', rfl, rfl⟩ := ih'
    exact ⟨[e, e'], by simp, by simp [f, f'], by simp only [prettyAll, inter_two, bar],
      by simp [C102_values]⟩
  | orMore _ _ ih ih' =>
    obtain ⟨e, f, rfl, rfl⟩ := ih
    obtain ⟨cs, l, f', rfl, rfl⟩ := ih'
    refine ⟨e :: cs, by simp; omega, by simpa [f] using f', ?_, by simp [C102_values]⟩
    cases cs with
    | nil => simp at l
    | cons d cs => simp only [prettyAll, inter_cons _ (pretty e true), bar]

end C102

/-- **C102.** A reader who knows `!`, `&&`, `||` and parentheses can read the label of such a
condition, and whatever they take it to be worth is what the condition is worth. -/
theorem C102_read_partial (ρ : List Char → Bool) (e : Cond) (h : C102_Formula e) :
    (∃ k, C102_Means ρ k (pretty e false) (C102_value ρ e)) ∧
      ∀ k v, C102_Means ρ k (pretty e false) v → v = C102_value ρ e := by
  constructor
  · cases h with
    | boolS h => exact ⟨.operand, by simpa [pretty] using C102.means ρ _ (.boolS h)⟩
    | not h => exact ⟨.operand, by simpa [pretty] using C102.means ρ _ (.not h)⟩
    | and hl h =>
      exact ⟨.ands, by
        simpa [pretty, paren, C102_value] using C102.ands ρ _ hl fun c hc => C102.means ρ c (h c hc)⟩
    | or hl h =>
      exact ⟨.ors, by
        simpa [pretty, paren, C102_value] using C102.ors ρ _ hl fun c hc => C102.means ρ c (h c hc)⟩
  · intro k v hv
    obtain ⟨cs, sep, n, f, hs, p, q⟩ := C102.top e h
    have hb := C102.back ρ k _ v hv
    cases k with
    | operand =>
      obtain ⟨e', f', p', rfl⟩ := hb
      have hl := C102.lists cs (fun c _ => C102.key c) f n [e'] (by simpa using f') (by simp) sep
        " && ".toList [] [] hs C102.sepA (.inl rfl) (.inl rfl)
        (by rw [← p, prettyAll, prettyAll, C102.inter_one, p'])
      obtain ⟨rfl, -, -⟩ := hl
      rcases q with ⟨q, -⟩ | ⟨q, -⟩
      · rw [(List.cons.inj q).1]
      · simp at q
    | ands =>
      obtain ⟨cs', l', f', p', rfl⟩ := hb
      have hl := C102.lists cs (fun c _ => C102.key c) f n cs' f' (C102.ne_nil l') sep _ [] []
        hs C102.sepA (.inl rfl) (.inl rfl) (by rw [← p, p'])
      obtain ⟨rfl, -, e2⟩ := hl
      rcases q with ⟨q, -⟩ | ⟨_, ⟨rfl, _⟩ | ⟨rfl, q⟩⟩
      · rw [q] at l'; simp at l'
      · rw [C102_value]
      · exact absurd (e2 l' ▸ q) C102.amp_ne_bar
    | ors =>
      obtain ⟨cs', l', f', p', rfl⟩ := hb
      have hl := C102.lists cs (fun c _ => C102.key c) f n cs' f' (C102.ne_nil l') sep _ [] []
        hs C102.sepB (.inl rfl) (.inl rfl) (by rw [← p, p'])
      obtain ⟨rfl, -, e2⟩ := hl
      rcases q with ⟨q, -⟩ | ⟨_, ⟨rfl, q⟩ | ⟨rfl, _⟩⟩
      · rw [q] at l'; simp at l'
      · exact absurd (e2 l' ▸ q).symm C102.amp_ne_bar
      · rw [C102_value]

/-- A condition with every operation: `!(map_p_1 || b_2) && map_p_1`. -/
example : let a := Cond.boolS "map_p_1_-1".toList; let b := Cond.boolS "b_2_-1".toList
    C102_Formula (.and [.not (.or [a, b]), a]) ∧
      pretty (.and [.not (.or [a, b]), a]) false = "!(map_p_1 || b_2) && map_p_1".toList := by
  have ha : C102_Formula (.boolS "map_p_1_-1".toList) :=
    .boolS ⟨"map_p_1".toList, by decide, by unfold C102_NameChar; decide, by decide⟩
  have hb : C102_Formula (.boolS "b_2_-1".toList) :=
    .boolS ⟨"b_2".toList, by decide, by unfold C102_NameChar; decide, by decide⟩
  exact ⟨.and (by simp) (by simp only [List.mem_cons, List.not_mem_nil, or_false]
                            rintro c (rfl | rfl)
                            · exact .not (.or (by decide) (by rintro c (_ | ⟨_, _ | ⟨_, ⟨⟩⟩⟩); exacts [ha, hb]))
                            · exact ha), by decide +kernel⟩

/-- The text of any other condition is what claripy writes between `<Bool ` and `>`, and that of
anything which is not a condition is what claripy writes. -/
theorem C102_other (t : List Char) (nested : Bool) :
    pretty (.other ("<Bool ".toList ++ t ++ ['>'])) nested = t ∧
      (¬ "<Bool".toList <+: t → pretty (.other t) nested = t) := by
  constructor
  · have h : "<Bool ".toList = ['<', 'B', 'o', 'o', 'l', ' '] := by decide
    have h' : "<Bool".toList = ['<', 'B', 'o', 'o', 'l'] := by decide
    rw [pretty, otherText, h, h', if_pos ⟨' ' :: (t ++ ['>']), by simp⟩]
    rw [List.dropLast_concat]
    rfl
  · intro h
    rw [pretty, otherText, if_neg h]

example : pretty (.other "<Bool x_1_16{UNINITIALIZED} == 0x4>".toList) true =
    "x_1_16{UNINITIALIZED} == 0x4".toList ∧
    pretty (.other "<BV8 if b_2_-1 then 1 else 0>".toList) false =
      "<BV8 if b_2_-1 then 1 else 0>".toList := by decide +kernel

/-- Not in general: below "not" and "and" only "and" and "or" are put in parentheses, so that for
every text `t` claripy writes, "not `t`" is written as if only its beginning was negated, and
`t` "and" another condition as if it was only its end. -/
theorem C102_ambiguous (t : List Char) (c : Cond) :
    pretty (.not (.other ("<Bool ".toList ++ t ++ ['>']))) false = '!' :: t ∧
      pretty (.not (.other ("<Bool ".toList ++ t ++ ['>']))) false =
        pretty (.other ("<Bool ".toList ++ ('!' :: t) ++ ['>'])) false ∧
      pretty (.and [.other ("<Bool ".toList ++ t ++ ['>']), c]) false =
        t ++ " && ".toList ++ pretty c true := by
  have k : ∀ u n, pretty (.other ("<Bool ".toList ++ u ++ ['>'])) n = u :=
    fun u n => (C102_other u n).1
  have h1 : pretty (.not (.other ("<Bool ".toList ++ t ++ ['>']))) false = '!' :: t := by
    rw [pretty, k]
  refine ⟨h1, by rw [h1, k], ?_⟩
  rw [pretty, paren, prettyAll, prettyAll, prettyAll, C102.inter_two, k]
  simp

/-- Not with names of one's own: a symbol whose name was given and one whose name was completed by
claripy are written the same. -/
theorem C102_named : ∃ a b : List Char, a ≠ b ∧
    pretty (.boolS a) false = pretty (.boolS b) false :=
  ⟨"PRESENT".toList, "PRESENT_-1".toList, by decide, by decide +kernel⟩

/-- **C102.** The two ways out of a fork never have the same label, whatever the condition is: its
negation is written with more characters. -/
theorem C102_fork (c : Cond) : (pretty c false).length < (pretty (.not c) false).length ∧
    pretty c false ≠ pretty (.not c) false := by
  have h : (pretty c false).length < (pretty (.not c) false).length := by
    cases c <;> simp [pretty, paren] <;> omega
  exact ⟨h, fun e => by rw [← e] at h; exact absurd h (Nat.lt_irrefl _)⟩

example : pretty (.not (.or [.boolS "a_1_-1".toList, .other "<Bool x < 2>".toList])) false =
    "!(a_1 || x < 2)".toList := by decide +kernel

/-! ## C103: reading a text -/

/-- The byte `i` after an address. -/
def C103_at (ptr : BitVec 64) (i : Nat) : BitVec 64 := ptr + BitVec.ofNat 64 i

namespace C103

theorem at_zero (p : BitVec 64) : C103_at p 0 = p := by simp [C103_at]

theorem at_succ (p : BitVec 64) (i : Nat) : C103_at (p + 1) i = C103_at p (i + 1) := by
  apply BitVec.eq_of_toNat_eq
  simp [C103_at, BitVec.toNat_add, BitVec.toNat_ofNat]
  omega

theorem loop (mem : BitVec 64 → Byte) (turns : Nat) (ptr : BitVec 64) (acc : List Char) :
    (∃ k < turns, (∃ bs : List (BitVec 8), bs.length = k ∧ (∀ b ∈ bs, b ≠ 0) ∧
        (∀ i (h : i < bs.length), mem (C103_at ptr i) = .concrete bs[i]) ∧
        ((mem (C103_at ptr k) = .concrete 0 ∧
            readLoop mem turns ptr acc = .text (acc ++ bs.map fun b => Char.ofNat b.toNat)) ∨
          (mem (C103_at ptr k) = .symbolic ∧ readLoop mem turns ptr acc = .raised)))) ∨
      ((∀ k < turns, ∃ b, b ≠ 0 ∧ mem (C103_at ptr k) = .concrete b) ∧
        readLoop mem turns ptr acc = .running) := by
  induction turns generalizing ptr acc with
  | zero => exact .inr ⟨by simp, rfl⟩
  | succ n ih =>
    rw [readLoop]
    cases hm : mem ptr with
    | symbolic => exact .inl ⟨0, by omega, [], rfl, by simp, by simp, .inr ⟨by rw [at_zero, hm], rfl⟩⟩
    | concrete b =>
      by_cases hb : b = 0
      · subst hb
        exact .inl ⟨0, by omega, [], rfl, by simp, by simp, .inl ⟨by rw [at_zero, hm], by simp⟩⟩
      · simp only [hb, if_false]
        rcases ih (ptr + 1) (acc ++ [Char.ofNat b.toNat]) with ⟨k, hk, bs, hl, hz, hi, hr⟩ | ⟨ha, hr⟩
        · refine .inl ⟨k + 1, by omega, b :: bs, by simp [hl], by
            intro x hx
            rcases List.mem_cons.mp hx with rfl | hx
            · exact hb
            · exact hz x hx, ?_, ?_⟩
          · intro i hi'
            cases i with
            | zero => simpa [at_zero] using hm
            | succ i => rw [← at_succ]; exact hi i (by simpa using hi')
          · rw [← at_succ]; simpa using hr
        · refine .inr ⟨?_, hr⟩
          intro k hk
          cases k with
          | zero => exact ⟨b, hb, by rw [at_zero, hm]⟩
          | succ k =>
            obtain ⟨b', h0, hb'⟩ := ha k (by omega)
            exact ⟨b', h0, by rw [← at_succ, hb']⟩

theorem chr_inj {a b : BitVec 8} (h : Char.ofNat a.toNat = Char.ofNat b.toNat) : a = b := by
  revert a b; decide +kernel

end C103

/-- **C103.** If the memory at an address holds known bytes other than 0 and then a 0, `read_str`
returns one character for each of the bytes before the 0, in order, in one turn of its loop for
each of them and one for the 0. -/
theorem C103_text (mem : BitVec 64 → Byte) (ptr : BitVec 64) (bs : List (BitVec 8))
    (nz : ∀ b ∈ bs, b ≠ 0)
    (here : ∀ i (h : i < bs.length), mem (C103_at ptr i) = .concrete bs[i])
    (last : mem (C103_at ptr bs.length) = .concrete 0) (turns : Nat) (enough : bs.length < turns) :
    readStr mem turns ptr = .text (bs.map fun b => Char.ofNat b.toNat) := by
  rcases C103.loop mem turns ptr [] with ⟨k, hk, bs', hl, hz, hi, hr⟩ | ⟨ha, hr⟩
  · rcases Nat.lt_trichotomy k bs.length with h | h | h
    · have := here k h
      rcases hr with ⟨hr, _⟩ | ⟨hr, _⟩ <;> rw [this] at hr
      · exact absurd (Byte.concrete.inj hr) (nz _ (List.getElem_mem h))
      · cases hr
    · have hb : bs' = bs := List.ext_getElem (by omega) fun i h1 h2 => by
        have := hi i h1
        rw [here i h2] at this
        exact (Byte.concrete.inj this).symm
      subst hb
      rcases hr with ⟨_, hr⟩ | ⟨hr, _⟩
      · simpa [readStr] using hr
      · rw [h, last] at hr; cases hr
    · have := hi bs.length (by omega)
      rw [last] at this
      exact absurd (Byte.concrete.inj this).symm (hz _ (List.getElem_mem _))
  · obtain ⟨b, h0, hb⟩ := ha _ enough
    rw [last] at hb
    exact absurd (Byte.concrete.inj hb).symm h0

/-- **C103.** It returns nothing else: a text it returns is that of the known bytes before the
first 0, and two calls that return the same text have read the same bytes. -/
theorem C103_only (mem : BitVec 64 → Byte) (ptr : BitVec 64) (turns : Nat) (s : List Char)
    (h : readStr mem turns ptr = .text s) :
    ∃! bs : List (BitVec 8), bs.length < turns ∧ s = bs.map (fun b => Char.ofNat b.toNat) ∧
      (∀ b ∈ bs, b ≠ 0) ∧
      (∀ i (h : i < bs.length), mem (C103_at ptr i) = .concrete bs[i]) ∧
      mem (C103_at ptr bs.length) = .concrete 0 := by
  rcases C103.loop mem turns ptr [] with ⟨k, hk, bs, rfl, hz, hi, hr⟩ | ⟨_, hr⟩
  · rcases hr with ⟨hm, hr⟩ | ⟨_, hr⟩
    · rw [readStr, hr] at h
      have hs : s = bs.map (fun b => Char.ofNat b.toNat) := by simpa using (Read.text.inj h).symm
      refine ⟨bs, ⟨hk, hs, hz, hi, hm⟩, ?_⟩
      rintro bs' ⟨_, hs', _⟩
      rw [hs] at hs'
      exact (List.map_injective_iff.mpr (fun a b => C103.chr_inj) hs').symm
    · rw [readStr, hr] at h; cases h
  · rw [readStr, hr] at h; cases h

/-- **C103.** It raises exactly if a byte that is not known comes before any 0. -/
theorem C103_raised (mem : BitVec 64 → Byte) (ptr : BitVec 64) (turns : Nat) :
    readStr mem turns ptr = .raised ↔
      ∃ k < turns, mem (C103_at ptr k) = .symbolic ∧
        ∀ i < k, ∃ b, b ≠ 0 ∧ mem (C103_at ptr i) = .concrete b := by
  rcases C103.loop mem turns ptr [] with ⟨k, hk, bs, rfl, hz, hi, hr⟩ | ⟨ha, hr⟩
  · have hc : ∀ i < bs.length, ∃ b, b ≠ 0 ∧ mem (C103_at ptr i) = .concrete b :=
      fun i h => ⟨bs[i], hz _ (List.getElem_mem h), hi i h⟩
    rcases hr with ⟨hm, hr⟩ | ⟨hm, hr⟩
    · rw [readStr, hr]
      refine ⟨fun h => (by cases h), ?_⟩
      rintro ⟨j, _, hj, hlt⟩
      rcases Nat.lt_trichotomy j bs.length with h | h | h
      · obtain ⟨b, _, hb⟩ := hc j h
        rw [hj] at hb; cases hb
      · rw [h, hm] at hj; cases hj
      · obtain ⟨b, h0, hb⟩ := hlt _ h
        rw [hm] at hb
        exact absurd (Byte.concrete.inj hb).symm h0
    · rw [readStr, hr]
      exact ⟨fun _ => ⟨_, hk, hm, hc⟩, fun _ => rfl⟩
  · rw [readStr, hr]
    refine ⟨fun h => (by cases h), ?_⟩
    rintro ⟨j, hlt, hj, _⟩
    obtain ⟨b, _, hb⟩ := ha j hlt
    rw [hj] at hb; cases hb

/-- **C103.** It never ends exactly if every byte of the address space is known and not 0: it goes
on from the last address to the first. -/
theorem C103_endless (mem : BitVec 64 → Byte) (ptr : BitVec 64) :
    (∀ turns, readStr mem turns ptr = .running) ↔ ∀ a, ∃ b, b ≠ 0 ∧ mem a = .concrete b := by
  constructor
  · intro h a
    have hat : C103_at ptr (a - ptr).toNat = a := by
      rw [C103_at, BitVec.ofNat_toNat, BitVec.setWidth_eq, BitVec.add_comm, BitVec.sub_add_cancel]
    have hlt : (a - ptr).toNat < 2 ^ 64 := (a - ptr).isLt
    rcases C103.loop mem (2 ^ 64) ptr [] with ⟨_, _, bs, _, _, _, hr⟩ | ⟨ha, _⟩
    · have := h (2 ^ 64)
      rcases hr with ⟨_, hr⟩ | ⟨_, hr⟩ <;> rw [readStr, hr] at this <;> cases this
    · obtain ⟨b, h0, hb⟩ := ha _ hlt
      exact ⟨b, h0, by rw [← hat, hb]⟩
  · intro h turns
    rcases C103.loop mem turns ptr [] with ⟨k, _, _, _, _, _, hr⟩ | ⟨_, hr⟩
    · obtain ⟨b, h0, hb⟩ := h (C103_at ptr k)
      rcases hr with ⟨hr, _⟩ | ⟨hr, _⟩ <;> rw [hb] at hr
      · exact absurd (Byte.concrete.inj hr) h0
      · cases hr
    · exact hr

/-- The name "ip" just below the end of the address space, the 0 after it being at address 0; and
the same with its second byte unknown. -/
example : let at? := fun (a : BitVec 64) (c : Byte) => if a = 0xfffffffffffffffe then
      Byte.concrete 0x69 else if a = 0xffffffffffffffff then c else .concrete 0
    readStr (fun a => at? a (.concrete 0x70)) 3 0xfffffffffffffffe = .text "ip".toList ∧
      readStr (fun a => at? a .symbolic) 3 0xfffffffffffffffe = .raised ∧
      readStr (fun _ => .concrete 0x69) 3 0 = .running := by decide +kernel

/-- Not every text: a byte is taken for the character of its number, so that a name written in the
two bytes UTF-8 has for `é` is read as two characters. -/
theorem C103_not_utf8 : ∃ mem : BitVec 64 → Byte,
    mem 0 = .concrete 0xc3 ∧ mem 1 = .concrete 0xa9 ∧
      String.toUTF8 "é" = ⟨#[0xc3, 0xa9]⟩ ∧ readStr mem 3 0 = .text ['Ã', '©'] :=
  ⟨fun a => if a = 0 then .concrete 0xc3 else if a = 1 then .concrete 0xa9 else .concrete 0,
    by decide, by decide, by decide +kernel, by decide +kernel⟩

end Verif.Props
