import Verif.Spec.Status

namespace P4C

open Spec

theorem told_append (l l' : List BuilderStep) : told (l ++ l') = told l ++ told l' := by
  induction l with
  | nil => rfl
  | cons s l ih => cases s <;> simp [told, ih]

theorem enriched_unique {s : Status} {e : Str} {a b : Status} (ha : Enriched s e a) (hb : Enriched s e b) : a = b := by
  cases ha <;> cases hb <;> simp_all

theorem join_enriched (s : Status) (e : Str) : Enriched s e (s.join e) := by
  unfold Status.join
  by_cases he : e = []
  · subst he; exact .none s
  · rw [if_neg he]
    cases s with
    | ok => exact .ok e
    | error c m =>
      by_cases hm : m = []
      · subst hm; exact .first c e
      · simp only [hm, if_false]; exact .further c m e hm he

/-- The stream after the steps. -/
def streamed (s : StringStream) : List BuilderStep → StringStream
  | [] => s
  | .write t :: l => streamed (s.write t) l
  | .copy :: l => streamed (.ofStr s.buf) l
  | .convert :: l => streamed s l

theorem built_ok (s : StringStream) (l : List BuilderStep) : ∃ s', built ⟨.ok, s⟩ l = ⟨.ok, s'⟩ := by
  induction l generalizing s with
  | nil => exact ⟨s, rfl⟩
  | cons x l ih => cases x <;> exact ih _

theorem built_error (c : AbslCode) (m : Str) (s : StringStream) (l : List BuilderStep) :
    built ⟨.error c m, s⟩ l = ⟨.error c m, streamed s l⟩ := by
  induction l generalizing s with
  | nil => rfl
  | cons x l ih => cases x <;> exact ih _

theorem streamed_length (s : StringStream) (h : s.pos ≤ s.buf.length) (l : List BuilderStep) :
    (streamed s l).buf.length ≤ s.buf.length + (told l).length := by
  induction l generalizing s with
  | nil => simp [streamed]
  | cons x l ih =>
    cases x with
    | write t =>
      have h' := ih (s.write t) (by simp [StringStream.write]; omega)
      have hl : (s.write t).buf.length ≤ s.buf.length + t.length := by
        simp only [StringStream.write, List.length_append, List.length_take, List.length_drop]; omega
      simp only [streamed, told, List.length_append]; omega
    | copy => exact ih (.ofStr s.buf) (Nat.zero_le _)
    | convert => exact ih s h

/-- The stream holds everything exactly if nothing is overwritten. -/
theorem streamed_iff (s : StringStream) (h : s.pos ≤ s.buf.length) (l : List BuilderStep) :
    (streamed s l).buf = s.buf ++ told l ↔
      (s.pos = s.buf.length ∨ told l = []) ∧
      (∀ before after, l = before ++ .copy :: after → s.buf ++ told before = [] ∨ told after = []) := by
  induction l generalizing s with
  | nil => simp [streamed, told]
  | cons x l ih =>
    cases x with
    | write t =>
      have hp : (s.write t).pos ≤ (s.write t).buf.length := by simp [StringStream.write]; omega
      have shift : ∀ b : Str, b = s.buf ++ t →
          ((∀ before after, l = before ++ .copy :: after → b ++ told before = [] ∨ told after = []) ↔
          ∀ before after, .write t :: l = before ++ .copy :: after → s.buf ++ told before = [] ∨ told after = []) := by
        rintro b rfl
        constructor
        · intro hs before after e
          cases before with
          | nil => simp at e
          | cons y before =>
            simp only [List.cons_append, List.cons.injEq] at e
            obtain ⟨rfl, e⟩ := e
            simpa [told] using hs before after e
        · intro hs before after e
          have := hs (.write t :: before) after (by rw [e]; rfl)
          simpa [told] using this
      by_cases hc : s.pos = s.buf.length ∨ t = []
      · have hb : (s.write t).buf = s.buf ++ t := by
          rcases hc with hc | rfl
          · simp only [StringStream.write, hc, List.take_length]
            rw [List.drop_eq_nil_of_le (by omega)]; simp
          · simp [StringStream.write]
        have := ih (s.write t) hp
        simp only [streamed, told]
        rw [show s.buf ++ (t ++ told l) = (s.write t).buf ++ told l by rw [hb, List.append_assoc], this, shift _ hb]
        have hpos : (s.write t).pos = s.pos + t.length := rfl
        have hlen : (s.write t).buf.length = s.buf.length + t.length := by rw [hb, List.length_append]
        rw [hpos, hlen]
        rcases hc with hc | rfl
        · simp [hc]
        · simp
      · have hlt : s.pos < s.buf.length := by omega
        have ht : 0 < t.length := by
          rcases t with _ | _
          · simp at hc
          · simp
        constructor
        · intro e
          have e' := congrArg List.length e
          have h' := streamed_length (s.write t) hp l
          have hl : (s.write t).buf.length < s.buf.length + t.length := by
            simp only [StringStream.write, List.length_append, List.length_take, List.length_drop]; omega
          simp only [streamed, told, List.length_append] at e'
          omega
        · rintro ⟨h1, -⟩
          rcases h1 with h1 | h1
          · omega
          · simp only [told, List.append_eq_nil_iff] at h1
            exact absurd (Or.inr h1.1) hc
    | copy =>
      have := ih (.ofStr s.buf) (Nat.zero_le _)
      simp only [streamed, told]
      refine this.trans ?_
      constructor
      · rintro ⟨h1, h2⟩
        have h1' : s.buf = [] ∨ told l = [] := by
          rcases h1 with h1 | h1
          · exact .inl (List.length_eq_zero_iff.1 h1.symm)
          · exact .inr h1
        refine ⟨?_, ?_⟩
        · rcases h1' with h0 | h0
          · left; rw [h0] at h ⊢; simpa using h
          · exact .inr h0
        · intro before after e
          cases before with
          | nil =>
            simp only [List.nil_append, List.cons.injEq, true_and] at e
            subst e
            simpa [told] using h1'
          | cons y before =>
            simp only [List.cons_append, List.cons.injEq] at e
            obtain ⟨rfl, e⟩ := e
            simpa [told, StringStream.ofStr] using h2 before after e
      · rintro ⟨-, h2⟩
        refine ⟨?_, ?_⟩
        · rcases h2 [] l rfl with h0 | h0
          · left
            have h0 : s.buf = [] := by simpa [told] using h0
            simp [StringStream.ofStr, h0]
          · exact .inr h0
        · intro before after e
          have := h2 (.copy :: before) after (by rw [e]; rfl)
          simpa [told, StringStream.ofStr] using this
    | convert =>
      have := ih s h
      simp only [streamed, told]
      refine this.trans (and_congr_right fun _ => ?_)
      constructor
      · intro hs before after e
        cases before with
        | nil => simp at e
        | cons y before =>
          simp only [List.cons_append, List.cons.injEq] at e
          obtain ⟨rfl, e⟩ := e
          simpa [told] using hs before after e
      · intro hs before after e
        have := hs (.convert :: before) after (by rw [e]; rfl)
        simpa [told] using this

theorem streamed_new (l : List BuilderStep) : (streamed {} l).buf = told l ↔ NotOverwritten l := by
  have := streamed_iff {} (Nat.le_refl _) l
  simpa [NotOverwritten] using this

theorem join_injective {c : AbslCode} {m a b : Str} (h : (Status.error c m).join a = (Status.error c m).join b) :
    a = b := by
  unfold Status.join at h
  by_cases ha : a = [] <;> by_cases hb : b = [] <;> by_cases hm : m = [] <;> simp_all

theorem foldl_built (texts : List Str) (b : StatusBuilder) :
    texts.foldl StatusBuilder.append b = built b (texts.map .write) := by
  induction texts generalizing b with
  | nil => rfl
  | cons t l ih => exact ih _

theorem told_writes (texts : List Str) : told (texts.map .write) = texts.flatten := by
  induction texts with
  | nil => rfl
  | cons t l ih => simp [told, ih]

theorem writes_kept (texts : List Str) : NotOverwritten (texts.map .write) := by
  intro before after e
  have : BuilderStep.copy ∈ texts.map .write := by rw [e]; simp
  simp at this

theorem toStatus_eq (b : StatusBuilder) : b.toStatus = b.status.join b.stream.buf := rfl

theorem built_join {s : Status} {l : List BuilderStep} (h : NotOverwritten l) :
    (built ⟨s, {}⟩ l).toStatus = s.join (told l) := by
  cases s with
  | ok =>
    obtain ⟨s', e⟩ := built_ok {} l
    rw [e]; simp [toStatus_eq, Status.join]
  | error c m => rw [built_error, toStatus_eq, (streamed_new l).2 h]

theorem written_join (s : Status) (texts : List Str) :
    (texts.foldl StatusBuilder.append ⟨s, {}⟩).toStatus = s.join texts.flatten := by
  rw [foldl_built, built_join (writes_kept texts), told_writes]

theorem name_no_colon (c : AbslCode) : ':' ∉ c.name := by cases c <;> decide

theorem name_ne_ok (c : AbslCode) : c.name ≠ c!"OK" := by cases c <;> decide

theorem name_injective {c c' : AbslCode} (h : c.name = c'.name) : c = c' := by
  cases c <;> cases c' <;> first | rfl | exact absurd h (by decide)

/-- Two texts without colon, each followed by a colon, are equal if the results are. -/
theorem colon_split {a b r r' : Str} (ha : ':' ∉ a) (hb : ':' ∉ b) (h : a ++ ':' :: r = b ++ ':' :: r') :
    a = b ∧ r = r' := by
  induction a generalizing b with
  | nil =>
    cases b with
    | nil => exact ⟨rfl, by simpa using h⟩
    | cons y b =>
      simp only [List.cons_append, List.nil_append, List.cons.injEq] at h
      exact absurd (h.1 ▸ List.mem_cons_self) hb
  | cons x a ih =>
    cases b with
    | nil =>
      simp only [List.cons_append, List.nil_append, List.cons.injEq] at h
      exact absurd (h.1 ▸ List.mem_cons_self) ha
    | cons y b =>
      simp only [List.cons_append, List.cons.injEq, List.mem_cons, not_or] at h ha hb
      obtain ⟨e, e'⟩ := ih ha.2 hb.2 h.2
      exact ⟨by rw [h.1, e], e'⟩

theorem stable_injective {s s' : Status} (h : s.stable = s'.stable) : s = s' := by
  cases s with
  | ok =>
    cases s' with
    | ok => rfl
    | error c m =>
      simp only [Status.stable, List.append_assoc, List.cons_append, List.nil_append] at h
      exact absurd (colon_split (by decide) (name_no_colon c) h).1.symm (name_ne_ok c)
  | error c m =>
    cases s' with
    | ok =>
      simp only [Status.stable, List.append_assoc, List.cons_append, List.nil_append] at h
      exact absurd (colon_split (name_no_colon c) (by decide) h).1 (name_ne_ok c)
    | error c' m' =>
      simp only [Status.stable, List.append_assoc, List.cons_append, List.nil_append] at h
      obtain ⟨e, e'⟩ := colon_split (name_no_colon c) (name_no_colon c') h
      rw [name_injective e]
      simpa using e'

end P4C
