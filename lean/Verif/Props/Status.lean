import Verif.Proofs.Status

/-
C73: statuses are passed on with the code they have, enriched with the texts that are streamed into the builder.
-/

namespace P4C

open Spec

/-- **C73 (partial)**: the status made by a builder is the original status, enriched with everything streamed into the
builder, in order. Missing: builders that are copied in between (see `C73_exact` and `C73_fails`). -/
theorem C73_builder_partial (s s' : Status) (l : List BuilderStep) (h : NotOverwritten l) :
    (built ⟨s, {}⟩ l).toStatus = s' ↔ Enriched s (told l) s' := by
  rw [built_join h]
  constructor
  · rintro rfl; exact join_enriched s _
  · exact fun he => enriched_unique (join_enriched s _) he

/-- **C73, exactly when**: the status is the enriched one only if nothing is streamed into a copy of a builder into which
something was streamed before. -/
theorem C73_exact (c : AbslCode) (m : Str) (l : List BuilderStep) :
    Enriched (.error c m) (told l) (built ⟨.error c m, {}⟩ l).toStatus ↔ NotOverwritten l := by
  constructor
  · intro h
    have e := enriched_unique (join_enriched (.error c m) (told l)) h
    rw [built_error, toStatus_eq] at e
    exact (streamed_new l).1 (join_injective e).symm
  · intro h
    exact (C73_builder_partial _ _ l h).1 rfl

/-- **C73, copies**: what is streamed into a copy overwrites what the builder had been told before. -/
theorem C73_fails : ∃ (s : Status) (l : List BuilderStep),
    ¬ Enriched s (told l) (built ⟨s, {}⟩ l).toStatus ∧
    (built ⟨s, {}⟩ l).toStatus = .error .invalidArgument c!"no such tag in key" := by
  refine ⟨.error .invalidArgument [], [.write c!"key missing in key", .copy, .write c!"no such ta"], ?_, by decide⟩
  rw [C73_exact]
  intro h
  rcases h [.write c!"key missing in key"] [.write c!"no such ta"] rfl with h | h <;> exact absurd h (by decide)

/-- **C73, codes**: whatever is done with the builder, OK remains OK and the code of an error is unchanged. -/
theorem C73_code (s : Status) (l : List BuilderStep) :
    (s = .ok ↔ (built ⟨s, {}⟩ l).toStatus = .ok) ∧
    ∀ c, (∃ m, s = .error c m) ↔ ∃ m, (built ⟨s, {}⟩ l).toStatus = .error c m := by
  cases s with
  | ok =>
    obtain ⟨s', e⟩ := built_ok {} l
    simp [e, toStatus_eq, Status.join]
  | error c m =>
    rw [built_error, toStatus_eq]
    unfold Status.join
    split <;> simp

/-- **C73, conversion**: converting a builder that is kept and one that is given away make the same status; the latter
leaves an unknown error without message. -/
theorem C73_convert (b : StatusBuilder) :
    b.createStatus.1 = b.toStatus ∧ b.createStatus.2.toStatus = .error .unknown [] := ⟨rfl, rfl⟩

/-- **C73, errors are returned**: `RETURN_IF_ERROR` returns exactly if the status is an error, and then that error,
enriched with the texts. -/
theorem C73_returnIfError (s s' : Status) (texts : List Str) :
    returnIfError s texts = some s' ↔ s ≠ .ok ∧ Enriched s texts.flatten s' := by
  have hj : (texts.foldl StatusBuilder.append ⟨s, {}⟩).createStatus.1 = s.join texts.flatten := written_join s texts
  unfold returnIfError
  cases s with
  | ok => simp [Status.isOk]
  | error c m =>
    rw [hj]
    simp only [Status.isOk, Bool.false_eq_true, if_false, Option.some.injEq, ne_eq, reduceCtorEq, not_false_eq_true,
      true_and]
    constructor
    · rintro rfl; exact join_enriched _ _
    · exact fun he => enriched_unique (join_enriched _ _) he

/-- **C73, checks**: `RET_CHECK` returns exactly if the condition is false, and then an internal error that names file,
line and condition, followed by the texts. -/
theorem C73_retCheck (b : Bool) (file line cond : Str) (texts : List Str) (s : Status) :
    retCheck b file line cond texts = some s ↔
      b = false ∧ s = .error .internal
        (c!"RET_CHECK failure (" ++ file ++ c!":" ++ line ++ c!") " ++ cond ++ texts.flatten) := by
  have hj : (texts.foldl StatusBuilder.append (retCheckFail file line cond)).createStatus.1 =
      (Status.error .internal []).join
        ([c!"RET_CHECK failure (", file, c!":", line, c!") ", cond] ++ texts).flatten := by
    unfold retCheckFail StatusBuilder.ofCode
    rw [← List.foldl_append]
    exact written_join _ _
  unfold retCheck
  rw [hj]
  cases b with
  | true => simp
  | false => simp [Status.join, eq_comm]

/-- **C73, messages of the model**: a call whose result is bound in the model is one whose error is passed on by
`ASSIGN_OR_RETURN`. -/
theorem C73_bind {α β : Type} (r : MRes α) (f : α → MRes β) (g : α → StatusOr β)
    (hf : ∀ a, (f a).returned = some (g a)) :
    (r.bind f).returned = r.returned.map fun e => assignOrReturn e [] g := by
  cases r with
  | ok a => exact hf a
  | err c m =>
    simp only [MRes.bind, MRes.returned, Option.map_some, assignOrReturn, written_join, List.flatten_nil]
    simp [Status.join]
  | crash => rfl
  | oof => rfl

/-- **C73, annotations of the model**: `MRes.annotate` is what `ASSIGN_OR_RETURN(.., .., _ << text)` does. -/
theorem C73_annotate {α : Type} (r : MRes α) (text : Str) (ht : text ≠ []) :
    (r.annotate text).returned = r.returned.map fun e => assignOrReturn e [text] .value := by
  cases r with
  | ok a => rfl
  | err c m =>
    simp only [MRes.annotate, MRes.returned, Option.map_some, assignOrReturn, written_join]
    simp [Status.join, ht]
  | crash => rfl
  | oof => rfl

/-- **C73, quotations of the model**: the message of an error that quotes the constraint is what a builder that is told
the quotation, the tag and the text makes. -/
theorem C73_quoting {α : Type} (x : Texts) (tag text q : Str) (src : ConstraintSource) (start stop : Loc)
    (hq : quoteSub src start stop = .ok q) :
    (quotingErrorM x tag text src start stop : MRes α).returned =
      some (.status ([q, tag, text].foldl StatusBuilder.append (.ofCode .invalidArgument)).toStatus) := by
  have e : (quotingErrorM x tag text src start stop : MRes α) = .err .invalidArgument (q ++ tag ++ text) := by
    unfold quotingErrorM; rw [hq]
  rw [e]
  unfold StatusBuilder.ofCode
  rw [written_join]
  simp only [MRes.returned, Code.toAbsl, Status.join, List.flatten_cons, List.flatten_nil, List.append_nil]
  rw [← List.append_assoc]
  by_cases hne : q ++ tag ++ text = []
  · rw [if_pos hne, hne]
  · rw [if_neg hne, if_pos trivial]

/-- **C73, rendering**: the stable rendering of a status determines its code and its message. -/
theorem C73_stable (s s' : Status) : s.stable = s'.stable ↔ s = s' :=
  ⟨stable_injective, fun h => h ▸ rfl⟩

/-- **C73, rendering**: it consists of one word of capital letters and underscores, a colon and a space, the message, and a
newline. -/
theorem C73_stable_form (c : AbslCode) (m : Str) :
    ∃ w, w ≠ [] ∧ (∀ ch ∈ w, ch.isUpper = true ∨ ch = '_') ∧ (Status.error c m).stable = w ++ ':' :: ' ' :: (m ++ ['\n']) := by
  refine ⟨c.name, ?_, ?_, by simp [Status.stable]⟩ <;> cases c <;> decide

/-- **C73, rendering**: the codes of the library have these names. -/
theorem C73_codes : Code.invalidArgument.toAbsl.name = c!"INVALID_ARGUMENT" ∧ Code.internal.toAbsl.name = c!"INTERNAL" ∧
    Code.unimplemented.toAbsl.name = c!"UNIMPLEMENTED" ∧ Code.notFound.toAbsl.name = c!"NOT_FOUND" :=
  ⟨rfl, rfl, rfl, rfl⟩

/-! ### Examples -/

namespace Ex

example : (built ⟨.error .notFound c!"no table", {}⟩ [.write c!"while ", .convert, .write c!"checking"]).toStatus =
    .error .notFound c!"no table; while checking" := by decide

example : NotOverwritten [.copy, .write c!"while ", .convert, .write c!"checking", .copy] := by
  intro before after e
  have : (built ⟨.error .notFound [], {}⟩ [.copy, .write c!"while ", .convert, .write c!"checking", .copy]).toStatus =
    .error .notFound c!"while checking" := by decide
  refine (C73_exact .notFound [] _).1 ?_ before after e
  rw [this]
  exact .first _ _

example : returnIfError (.error .internal c!"a") [c!"b", c!"c"] = some (.error .internal c!"a; bc") := by decide

example : retCheck false c!"interpreter.cc" c!"230" c!"key != nullptr" [c!" for x"] =
    some (.error .internal c!"RET_CHECK failure (interpreter.cc:230) key != nullptr for x") := by decide

example : (MRes.err .notFound c!"no key" : MRes Nat).annotate c!"in table" = .err .notFound c!"no key; in table" := by
  rfl

example : (Status.error .notFound c!"x: y").stable = c!"NOT_FOUND: x: y\n" := by decide

end Ex

end P4C
