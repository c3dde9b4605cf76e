import Verif.Spec.Shuffle
import Verif.Proofs.Entry3

/-
Entries that differ in the order of their parts.
-/

namespace P4C

open Spec

/-- An outcome other than an answer; an error if `strict`. -/
def Stuck {α : Type} (strict : Prop) (x : Res α) : Prop := (∀ a, x ≠ .ok a) ∧ (strict → ∃ c, x = .err c)

theorem Stuck.bind {α β : Type} {s : Prop} {x : Res α} (f : α → Res β) (h : Stuck s x) : Stuck s (x >>= f) := by
  cases x with
  | ok a => exact absurd rfl (h.1 a)
  | err c => exact ⟨fun a ha => (by cases ha), fun _ => ⟨c, rfl⟩⟩
  | crash => exact ⟨fun a ha => (by cases ha), fun hs => (by obtain ⟨c, hc⟩ := h.2 hs; cases hc)⟩
  | oof => exact ⟨fun a ha => (by cases ha), fun hs => (by obtain ⟨c, hc⟩ := h.2 hs; cases hc)⟩

/-- The same outcome, or no answer either way. -/
def Alike {α : Type} (s : Prop) (x y : Res α) : Prop := x = y ∨ Stuck s x ∧ Stuck s y

theorem Alike.bind {α β : Type} {s : Prop} {x y : Res α} {f g : α → Res β} (h : Alike s x y)
    (hf : ∀ a, Alike s (f a) (g a)) : Alike s (x >>= f) (y >>= g) := by
  rcases h with rfl | ⟨h1, h2⟩
  · cases x with
    | ok a => exact hf a
    | err c => exact .inl rfl
    | crash => exact .inl rfl
    | oof => exact .inl rfl
  · exact .inr ⟨h1.bind f, h2.bind g⟩

theorem entryOk_perm {ti : TableInfo} {a b : RtEntry} (h : a.matches_.Perm b.matches_) (ha : EntryOk ti a) :
    EntryOk ti b :=
  ⟨fun m hm => ha.known m (h.mem_iff.2 hm), (h.map _).nodup_iff.1 ha.once, fun id ki hk =>
    (ha.complete id ki hk).imp (fun ⟨m, hm, h'⟩ => ⟨m, h.mem_iff.1 hm, h'⟩) fun h' => h'⟩

theorem keyValue_perm {a b : RtEntry} (h : a.matches_.Perm b.matches_) (ki : VarInfo) (v : Value) :
    KeyValue a ki v ↔ KeyValue b ki v := by
  unfold KeyValue
  simp only [h.mem_iff]

theorem entryEnv_perm {ti : TableInfo} {a b : RtEntry} {ρ : Env} (h : a.matches_.Perm b.matches_)
    (hp : a.priority = b.priority) (ha : EntryEnv ti a ρ) : EntryEnv ti b ρ :=
  ⟨fun n v => (ha.key n v).trans
    ⟨fun ⟨ki, hk, hv⟩ => ⟨ki, hk, (keyValue_perm h ki v).1 hv⟩, fun ⟨ki, hk, hv⟩ => ⟨ki, hk, (keyValue_perm h ki v).2 hv⟩⟩,
    ha.param, ha.priority.trans (by rw [hp])⟩

theorem parseTableEntry_shuffled {ti : TableInfo} {a b : RtEntry} (hwf : TableWF ti) (h : a.matches_.Perm b.matches_)
    (hp : a.priority = b.priority) {ctx : EvalCtx} (hc : parseTableEntry a ti = .ok ctx) :
    ∃ ctx', parseTableEntry b ti = .ok ctx' ∧ SameCtx ctx ctx' := by
  obtain ⟨ctx', hc'⟩ := (parseTableEntry_iff hwf b).2 (entryOk_perm h ((parseTableEntry_iff hwf a).1 ⟨_, hc⟩))
  obtain ⟨he1, hs1, k1, hv1, hn1⟩ := parseTableEntry_env hwf hc
  obtain ⟨he2, hs2, k2, hv2, hn2⟩ := parseTableEntry_env hwf hc'
  have he := entryEnv_unique (entryEnv_perm h hp he1) he2
  refine ⟨ctx', hc', hs1.trans hs2.symm, .inl ⟨_, _, k1, k2, hv1, by rw [hv2, hp], hn1, hn2, fun n => ?_⟩⟩
  have h1 := congrFun (congrArg Env.key he) n
  simpa [envOf, hv1, hv2] using h1

theorem actionOk_perm {ai : ActionInfo} {a b : RtAction} (h : a.params.Perm b.params) (ha : ActionOk ai a) :
    ActionOk ai b :=
  ⟨fun p hp => ha.known p (h.mem_iff.2 hp), (h.map _).nodup_iff.1 ha.once⟩

theorem actionEnv_perm {ai : ActionInfo} {a b : RtAction} {ρ : Env} (h : a.params.Perm b.params)
    (ha : ActionEnv ai a ρ) : ActionEnv ai b ρ :=
  ⟨ha.key, fun n z => by rw [ha.param]; simp only [h.mem_iff], ha.priority⟩

theorem parseAction_shuffled {ai : ActionInfo} {a b : RtAction} (hwf : ActionWF ai) (h : ShuffledAction a b)
    {ctx : EvalCtx} (hc : parseAction a ai = .ok ctx) : ∃ ctx', parseAction b ai = .ok ctx' ∧ SameCtx ctx ctx' := by
  obtain ⟨ctx', hc'⟩ := (parseAction_iff hwf b).2 (actionOk_perm h.params ((parseAction_iff hwf a).1 ⟨_, hc⟩))
  obtain ⟨he1, hs1, k1, hv1, hn1⟩ := parseAction_env hwf hc
  obtain ⟨he2, hs2, k2, hv2, hn2⟩ := parseAction_env hwf hc'
  have he := actionEnv_unique (actionEnv_perm h.params he1) he2
  refine ⟨ctx', hc', hs1.trans hs2.symm, .inr ⟨_, _, k1, k2, hv1, by rw [hv2, h.id], hn1, hn2, fun n => ?_⟩⟩
  have h1 := congrFun (congrArg Env.param he) n
  simpa [envOf, hv1, hv2] using h1

theorem checkConstraint_alike {s : Prop} {c : Expr} {x y : Res EvalCtx}
    (h : ResRel SameCtx x y ∨ Stuck s x ∧ Stuck s y) : Alike s (checkConstraint c x) (checkConstraint c y) := by
  rcases h with h | ⟨h1, h2⟩
  · exact .inl (checkConstraint_same h)
  · unfold checkConstraint
    split
    · exact .inl rfl
    · exact .inr ⟨h1.bind _, h2.bind _⟩

theorem tableReason_alike {s : Prop} {ti : TableInfo} {a b : RtEntry} (hwf : TableWF ti)
    (hs : s → ∀ id ki, (id, ki) ∈ ti.keysById → MatchKind ki.ty) (h : a.matches_.Perm b.matches_)
    (hp : a.priority = b.priority) : Alike s (tableReason a ti) (tableReason b ti) := by
  unfold tableReason
  cases ti.constraint with
  | none => exact .inl rfl
  | some c =>
    refine checkConstraint_alike ?_
    have stuck : ∀ e : RtEntry, (∀ ctx, parseTableEntry e ti ≠ .ok ctx) → Stuck s (parseTableEntry e ti) := by
      refine fun e he => ⟨he, fun hs' => ?_⟩
      rcases parseTableEntry_errors hwf (hs hs') e with ⟨ctx, hc⟩ | hc | ⟨hc, _⟩
      · exact absurd hc (he ctx)
      · exact ⟨_, hc⟩
      · exact ⟨_, hc⟩
    by_cases ha : ∃ ctx, parseTableEntry a ti = .ok ctx
    · obtain ⟨ctx, hc⟩ := ha
      obtain ⟨ctx', hc', hsame⟩ := parseTableEntry_shuffled hwf h hp hc
      rw [hc, hc']
      exact .inl hsame
    · refine .inr ⟨stuck a fun ctx hc => ha ⟨ctx, hc⟩, stuck b fun ctx hc => ha ?_⟩
      obtain ⟨ctx', hc', _⟩ := parseTableEntry_shuffled hwf h.symm hp.symm hc
      exact ⟨ctx', hc'⟩

theorem parseParams_err (ai : ActionInfo) (ps : List (Str × Int)) (as : List (Nat × Bytes)) :
    (∃ r, parseParams ai ps as = .ok r) ∨ parseParams ai ps as = .err .invalidArgument := by
  induction as generalizing ps with
  | nil => exact .inl ⟨_, rfl⟩
  | cons a as ih =>
    obtain ⟨id, v⟩ := a
    unfold parseParams
    split
    · exact .inr rfl
    · split
      · exact .inr rfl
      · exact ih _

theorem parseAction_err (a : RtAction) (ai : ActionInfo) :
    (∃ ctx, parseAction a ai = .ok ctx) ∨ parseAction a ai = .err .invalidArgument := by
  unfold parseAction
  rcases parseParams_err ai [] a.params with ⟨r, h⟩ | h
  · exact .inl (by rw [h]; exact ⟨_, rfl⟩)
  · exact .inr (by rw [h]; rfl)

/-- The order of the arguments of an action makes no difference at all: there is but one error code. -/
theorem reasonAction_shuffled {ci : ConstraintInfo} (hwf : InfoWF ci) {a b : RtAction} (h : ShuffledAction a b) :
    reasonAction a ci = reasonAction b ci := by
  unfold reasonAction getActionInfo
  rw [h.id]
  cases hl : lookup b.actionId ci.actions with
  | none => rfl
  | some ai =>
    dsimp only
    cases ai.constraint with
    | none => rfl
    | some c =>
      dsimp only
      have hai := hwf.actions _ ai (lookup_some_mem hl)
      refine checkConstraint_same ?_
      rcases parseAction_err a ai with ⟨ctx, hc⟩ | hc
      · obtain ⟨ctx', hc', hs⟩ := parseAction_shuffled hai h hc
        rw [hc, hc']
        exact hs
      · rcases parseAction_err b ai with ⟨ctx, hc'⟩ | hc'
        · obtain ⟨ctx', hc'', _⟩ := parseAction_shuffled hai ⟨h.id.symm, h.params.symm⟩ hc'
          rw [hc] at hc''
          cases hc''
        · rw [hc, hc']
          exact rfl

theorem reasonTableAction_shuffled {ci : ConstraintInfo} (hwf : InfoWF ci) {a b : Option TableAction}
    (h : ShuffledTableAction a b) : reasonTableAction ci a = reasonTableAction ci b := by
  cases h with
  | none => rfl
  | notSet => rfl
  | member n => rfl
  | group n => rfl
  | action h => exact reasonAction_shuffled hwf h
  | set h =>
    change reasonActionSet ci _ = reasonActionSet ci _
    induction h with
    | nil => rfl
    | cons h _ ih =>
      rw [reasonActionSet, reasonActionSet, reasonAction_shuffled hwf h, ih]

theorem reason_alike {s : Prop} {ci : ConstraintInfo} (hwf : InfoWF ci) (hs : s → KindsOk ci) {a b : RtEntry}
    (h : Shuffled a b) : Alike s (reasonEntryViolatesConstraint a ci) (reasonEntryViolatesConstraint b ci) := by
  cases hl : lookup b.tableId ci.tables with
  | none =>
    unfold reasonEntryViolatesConstraint getTableInfo
    rw [h.table, hl]
    exact .inl rfl
  | some ti =>
    have hm := lookup_some_mem hl
    rw [reason_found hl, reason_found (h.table ▸ hl), reasonTableAction_shuffled hwf h.action]
    exact (tableReason_alike (hwf.tables _ ti hm) (fun hs' id ki hk => hs hs' _ ti id ki hm hk) h.matches_ h.priority).bind
      fun _ => .inl rfl

theorem reasonActionSet_perm {ci : ConstraintInfo} {as bs : List RtAction} (h : as.Perm bs) :
    reasonActionSet ci as = .ok [] ↔ reasonActionSet ci bs = .ok [] := by
  rw [reasonActionSet_nil, reasonActionSet_nil]
  simp only [h.mem_iff]

theorem tableReason_matches {ti : TableInfo} {a b : RtEntry} (h : a.matches_ = b.matches_)
    (hp : a.priority = b.priority) : tableReason a ti = tableReason b ti := by
  unfold tableReason parseTableEntry
  rw [h, hp]

end P4C
