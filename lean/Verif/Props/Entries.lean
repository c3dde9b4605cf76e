import Verif.Proofs.Entry3
import Verif.Props.Examples

/-
Reading of entries: properties C07, C08, C09, C12.
-/

namespace P4C

open Spec

/-! ### C12: byte strings -/

/-- C12: a byte string is read as the number it denotes in base 256, most significant byte first; leading zero
bytes do not matter; without them the string of a number is unique; the empty string is zero. -/
theorem C12_bytes :
    (∀ bs : Bytes, parseP4RTInteger bs = bytesNat bs) ∧
    (∀ n (bs : Bytes), parseP4RTInteger (List.replicate n 0 ++ bs) = parseP4RTInteger bs) ∧
    (∀ a b : Bytes, a.head? ≠ some 0 → b.head? ≠ some 0 → parseP4RTInteger a = parseP4RTInteger b → a = b) ∧
    parseP4RTInteger [] = 0 := by
  refine ⟨parseP4RTInteger_eq, ?_, ?_, rfl⟩
  · intro n bs
    rw [parseP4RTInteger_eq, parseP4RTInteger_eq, bytesNat_zeros]
  · intro a b ha hb h
    rw [parseP4RTInteger_eq, parseP4RTInteger_eq] at h
    exact bytesNat_inj ha hb (by omega)

/-- C12 at the level of the checker: entries that differ in the spelling of numbers only, in matches or in
parameters of their actions, have the same outcome, also if it is an error. -/
theorem C12_spelling {a b : RtEntry} (h : SameEntry a b) (ci : ConstraintInfo) :
    reasonEntryViolatesConstraint a ci = reasonEntryViolatesConstraint b ci := by
  unfold reasonEntryViolatesConstraint
  rw [h.table, reasonTableAction_spelling h.action]
  cases getTableInfo ci b.tableId with
  | none => rfl
  | some ti =>
    dsimp only
    have h1 : parseTableEntry a ti = parseTableEntry b ti := by
      unfold parseTableEntry
      rw [parseMatches_spelling h.matches_, h.priority]
    rw [h1]

/-- Two spellings of an entry with an action. -/
example : SameEntry
    { tableId := 1, matches_ := [⟨1, .exact [0, 0, 5]⟩, ⟨5, .optional [0, 3]⟩], action := some (.action ⟨7, [(1, [2])]⟩) }
    { tableId := 1, matches_ := [⟨1, .exact [5]⟩, ⟨5, .optional [3]⟩], action := some (.action ⟨7, [(1, [0, 2])]⟩) } :=
  ⟨rfl, rfl, .cons ⟨rfl, .exact rfl⟩ (.cons ⟨rfl, .optional rfl⟩ .nil),
    .action ⟨rfl, .cons ⟨rfl, rfl⟩ .nil⟩⟩

example : parseP4RTInteger [0, 1, 2] = 258 := rfl

/-! ### C08: omitted keys -/

/-- C08: what an omitted key stands for, in every entry that is accepted for evaluation. -/
theorem C08_omitted {ti : TableInfo} (hwf : TableWF ti) {entry : RtEntry} {ctx : EvalCtx}
    (hc : parseTableEntry entry ti = .ok ctx) {n : Str} {ki : VarInfo} (hki : (n, ki) ∈ ti.keysByName)
    (hno : ∀ m ∈ entry.matches_, m.fieldId ≠ ki.id) :
    ∃ keys v, ctx.vals = .table ⟨ti.name, entry.priority, keys⟩ ∧ lookup n keys = some v ∧
      ((∃ w, (ki.ty = .ternary w ∨ ki.ty = .optionalMatch w) ∧ v = .ternary 0 0) ∨
       (∃ w, ki.ty = .lpm w ∧ v = .lpm 0 0) ∨
       (∃ w : Nat, ki.ty = .range w ∧ v = .range 0 (2 ^ w - 1))) := by
  obtain ⟨he, _, keys, hv, _⟩ := parseTableEntry_env hwf hc
  obtain ⟨v, hkv⟩ := keyValue_exists hwf ((parseTableEntry_iff hwf entry).1 ⟨ctx, hc⟩) (hwf.byName n ki hki).2
  refine ⟨keys, v, hv, ?_, ?_⟩
  · have := (he.key n v).2 ⟨ki, hki, hkv⟩
    simpa [envOf, hv] using this
  · rcases hkv with ⟨m, hm, hid, _⟩ | ⟨_, hw⟩
    · exact (hno m hm hid).elim
    · generalize ki.ty = t at hw
      cases hw with
      | ternary w => exact .inl ⟨w, .inl rfl, rfl⟩
      | optional w => exact .inl ⟨w, .inr rfl, rfl⟩
      | lpm w => exact .inr (.inl ⟨w, rfl, rfl⟩)
      | range w => exact .inr (.inr ⟨w, rfl, rfl⟩)

/-- C08: in a table of a program, let `m` be a match whose contents are the wildcard of its key. Giving `m`
anywhere among the other matches of an entry has the same outcome (also if it is an error) as omitting it. -/
theorem C08_wildcard {ci : ConstraintInfo} {entry : RtEntry} {ti : TableInfo} {ms ms' : List FieldMatch}
    {m : FieldMatch} {ki : VarInfo} {v : Value} (hf : lookup entry.tableId ci.tables = some ti) (hwf : TableWF ti)
    (hki : (m.fieldId, ki) ∈ ti.keysById) (hd : MatchDenotes ki.ty m.val v) (hw : WildcardOf ki.ty v)
    (hno : ∀ m' ∈ ms ++ ms', m'.fieldId ≠ m.fieldId) :
    reasonEntryViolatesConstraint { entry with matches_ := ms ++ m :: ms' } ci =
      reasonEntryViolatesConstraint { entry with matches_ := ms ++ ms' } ci := by
  rw [reason_found (entry := { entry with matches_ := ms ++ m :: ms' }) hf,
    reason_found (entry := { entry with matches_ := ms ++ ms' }) hf]
  have h1 : tableReason { entry with matches_ := ms ++ m :: ms' } ti =
      tableReason { entry with matches_ := ms ++ ms' } ti := by
    unfold tableReason
    cases ti.constraint with
    | none => rfl
    | some c => exact (checkConstraint_same (parseTableEntry_wildcard hwf hki hd hw hno)).symm
  rw [h1]

/-- Which matches spell a wildcard: for each of the kinds that have one. -/
theorem C08_spellings :
    (∀ w a b, bytesNat a = 0 → bytesNat b = 0 → ∃ v, MatchDenotes (.ternary w) (.ternary a b) v ∧ WildcardOf (.ternary w) v) ∧
    (∀ w a, bytesNat a = 0 → ∃ v, MatchDenotes (.lpm w) (.lpm a 0) v ∧ WildcardOf (.lpm w) v) ∧
    (∀ (w : Nat) a b, bytesNat a = 0 → bytesNat b = 2 ^ w - 1 →
      ∃ v, MatchDenotes (.range w) (.range a b) v ∧ WildcardOf (.range w) v) := by
  refine ⟨?_, ?_, ?_⟩
  · intro w a b ha hb
    refine ⟨_, .ternary w a b, ?_⟩
    rw [ha, hb]
    exact .ternary w
  · intro w a ha
    refine ⟨_, .lpm w a 0, ?_⟩
    rw [ha]
    exact .lpm w
  · intro w a b ha hb
    refine ⟨_, .range w a b, ?_⟩
    rw [ha, hb]
    have h : ((2 ^ w - 1 : Nat) : Int) = 2 ^ w - 1 := by
      have := Nat.pow_pos (n := w) (show 0 < 2 by omega)
      rw [Int.natCast_sub this]
      simp
    rw [h]
    exact .range w

/-- The wildcard `0 &&& 0` for the ternary key, before the other matches. -/
example : reasonEntryViolatesConstraint { Ex.entry 5 with matches_ := [] ++ ⟨2, .ternary [0] []⟩ :: (Ex.entry 5).matches_ }
      (Ex.ci Ex.tc1 Ex.ac1) =
    reasonEntryViolatesConstraint { Ex.entry 5 with matches_ := [] ++ (Ex.entry 5).matches_ } (Ex.ci Ex.tc1 Ex.ac1) :=
  C08_wildcard (ti := Ex.ti Ex.tc1) (ki := ⟨2, c!"tern", .ternary 8⟩) (Ex.case1 5).found (Ex.case1 5).wf
    (by decide +kernel) (.ternary 8 [0] []) (.ternary 8) (by decide)

/-! ### C09: inconsistent entries -/

/-- C09: let the table have a boolean constraint, and keys of the five match kinds. An entry with an unknown key,
a repeated key, a missing exact key, or an empty match is rejected with InvalidArgument, unless it has a match of
the wrong kind. Full statement: without `hk`, and with InvalidArgument for matches of the wrong kind, too; the
latter is false (`C09_fails`). -/
theorem C09_rejects_partial {ci : ConstraintInfo} {entry : RtEntry} {ti : TableInfo} {c : Expr}
    (hf : lookup entry.tableId ci.tables = some ti) (hwf : TableWF ti) (hc : ti.constraint = some c)
    (hk : ∀ id ki, (id, ki) ∈ ti.keysById → MatchKind ki.ty)
    (hbad : UnknownKey ti entry ∨ RepeatedKey entry ∨ MissingKey ti entry ∨ EmptyMatch entry)
    (hkind : ¬ WrongKind ti entry) : reasonEntryViolatesConstraint entry ci = .err .invalidArgument := by
  have hne : ¬ EntryOk ti entry := by
    rw [entryOk_iff hwf hk]
    rintro ⟨h1, h2, h3, h4, _⟩
    rcases hbad with h | h | h | h
    · exact h1 h
    · exact h2 h
    · exact h3 h
    · exact h4 h
  rw [reason_found hf]
  unfold tableReason
  rw [hc]
  dsimp only
  rcases parseTableEntry_errors hwf hk entry with h | h | ⟨_, h⟩
  · exact (hne ((parseTableEntry_iff hwf entry).1 h)).elim
  · rw [h]
    unfold checkConstraint
    split <;> rfl
  · exact (hkind h).elim

/-- C09: an entry with a match of the wrong kind is rejected, with InvalidArgument or Internal. -/
theorem C09_wrong_kind_partial {ci : ConstraintInfo} {entry : RtEntry} {ti : TableInfo} {c : Expr}
    (hf : lookup entry.tableId ci.tables = some ti) (hwf : TableWF ti) (hc : ti.constraint = some c)
    (hk : ∀ id ki, (id, ki) ∈ ti.keysById → MatchKind ki.ty) (hkind : WrongKind ti entry) :
    reasonEntryViolatesConstraint entry ci = .err .invalidArgument ∨
    reasonEntryViolatesConstraint entry ci = .err .internal := by
  have hne : ¬ EntryOk ti entry := fun h => ((entryOk_iff hwf hk entry).1 h).2.2.2.2 hkind
  rw [reason_found hf]
  unfold tableReason
  rw [hc]
  dsimp only
  unfold checkConstraint
  split
  · exact .inl rfl
  · rcases parseTableEntry_errors hwf hk entry with h | h | ⟨h, _⟩
    · exact (hne ((parseTableEntry_iff hwf entry).1 h)).elim
    · rw [h]
      exact .inl rfl
    · rw [h]
      exact .inr rfl

/-- C09: every other entry is evaluated: each key of the table has the value the entry gives it (in exactly one
way), and the entry satisfies the constraint exactly if these values do. The hypothesis `hn` is that of
`C01_verdict_partial`. -/
theorem C09_accepts {ci : ConstraintInfo} {entry : RtEntry} {ti : TableInfo} {c : Expr} {s : SExpr}
    (hf : lookup entry.tableId ci.tables = some ti) (hwf : TableWF ti) (hc : ti.constraint = some c)
    (hw : WidthsOk (sigOf (.table ti.keysByName))) (hs : Checked (.table ti.keysByName) c s)
    (hb : HasTy (sigOf (.table ti.keysByName)) s .boolean) (hn : NoOrderedExact (sigOf (.table ti.keysByName)) s)
    (hk : ∀ id ki, (id, ki) ∈ ti.keysById → MatchKind ki.ty) (ha : entry.action = none)
    (h1 : ¬ UnknownKey ti entry) (h2 : ¬ RepeatedKey entry) (h3 : ¬ MissingKey ti entry) (h4 : ¬ EmptyMatch entry)
    (h5 : ¬ WrongKind ti entry) :
    ∃ ρ, EntryEnv ti entry ρ ∧
      (∀ n ki, (n, ki) ∈ ti.keysByName → ∃ v, ρ.key n = some v ∧ KeyValue entry ki v ∧
        ∀ v', KeyValue entry ki v' → v' = v) ∧
      (reasonEntryViolatesConstraint entry ci = .ok [] ↔ Holds (sigOf (.table ti.keysByName)) ρ s) := by
  have hok := (entryOk_iff hwf hk entry).2 ⟨h1, h2, h3, h4, h5⟩
  obtain ⟨ctx, hctx⟩ := (parseTableEntry_iff hwf entry).2 hok
  obtain ⟨he, _, keys, hv, _⟩ := parseTableEntry_env hwf hctx
  refine ⟨_, he, ?_, ?_⟩
  · intro n ki hki
    obtain ⟨v, hkv⟩ := keyValue_exists hwf hok (hwf.byName n ki hki).2
    have hv := (he.key n v).2 ⟨ki, hki, hkv⟩
    refine ⟨v, hv, hkv, fun v' hv' => ?_⟩
    have := (he.key n v').2 ⟨ki, hki, hv'⟩
    rw [hv] at this
    exact (Option.some.inj this).symm
  · rw [reason_noAction hf ha]
    exact TableCase.iff ⟨hf, hwf, hw, ⟨c, hc, hs⟩, hb, hok, he⟩ hn

/-- C09 for actions: an invocation with an unknown or repeated parameter is rejected with InvalidArgument. -/
theorem C09_action {ci : ConstraintInfo} {a : RtAction} {ai : ActionInfo} {c : Expr}
    (hf : lookup a.actionId ci.actions = some ai) (hwf : ActionWF ai) (hc : ai.constraint = some c)
    (hbad : (∃ p ∈ a.params, ∀ pi, (p.1, pi) ∉ ai.paramsById) ∨ ¬ (a.params.map Prod.fst).Nodup) :
    reasonAction a ci = .err .invalidArgument := by
  have hne : ¬ ActionOk ai a := by
    intro h
    rcases hbad with ⟨p, hp, hno⟩ | hn
    · obtain ⟨pi, hpi⟩ := h.known p hp
      exact hno pi hpi
    · exact hn h.once
  have htot : ∀ (ps : List (Nat × Bytes)) (acc : List (Str × Int)),
      (∃ b, parseParams ai acc ps = .ok b) ∨ parseParams ai acc ps = .err .invalidArgument := by
    intro ps
    induction ps with
    | nil => exact fun acc => .inl ⟨acc, rfl⟩
    | cons p ps ih =>
      intro acc
      obtain ⟨id, v⟩ := p
      unfold parseParams
      cases lookup id ai.paramsById with
      | none => exact .inr rfl
      | some pi =>
        dsimp only
        split
        · exact .inr rfl
        · exact ih _
  have hp : parseAction a ai = .err .invalidArgument := by
    rcases htot a.params [] with ⟨b, h⟩ | h
    · exact (hne ((parseAction_iff hwf a).1 ⟨_, by unfold parseAction; rw [h]; rfl⟩)).elim
    · unfold parseAction
      rw [h]
      rfl
  rw [reasonAction_found hf hc, hp]
  unfold checkConstraint
  split <;> rfl

theorem Ex.kinds : ∀ id ki, (id, ki) ∈ (Ex.ti Ex.tc1).keysById → MatchKind ki.ty := by
  have h : (Ex.ti Ex.tc1).keysById = [(5, ⟨5, c!"opt", .optionalMatch (4 : Nat)⟩), (4, ⟨4, c!"ran", .range (8 : Nat)⟩),
    (3, ⟨3, c!"pre", .lpm (16 : Nat)⟩), (2, ⟨2, c!"tern", .ternary (8 : Nat)⟩), (1, ⟨1, c!"ex", .exact (32 : Nat)⟩)] := by
    decide +kernel
  intro id ki hk
  rw [h] at hk
  simp only [List.mem_cons, List.not_mem_nil, or_false] at hk
  rcases hk with hk | hk | hk | hk | hk <;> (injection hk with _ hk; subst hk)
  · exact MatchKind.optional 4
  · exact MatchKind.range 8
  · exact MatchKind.lpm 16
  · exact MatchKind.ternary 8
  · exact MatchKind.exact 32

/-- An entry without the exact key. -/
example : reasonEntryViolatesConstraint { tableId := 1, matches_ := [⟨5, .optional [3]⟩] } (Ex.ci Ex.tc1 Ex.ac1) =
    .err .invalidArgument := by
  refine C09_rejects_partial (ti := Ex.ti Ex.tc1) (c := (Ex.ti Ex.tc1).constraint.getD (.notSet {}))
    (Ex.case1 5).found (Ex.case1 5).wf (by decide +kernel) Ex.kinds
    (.inr (.inr (.inl ⟨1, ⟨1, c!"ex", .exact 32⟩, 32, by decide +kernel, rfl, by decide⟩))) ?_
  rintro ⟨m, hm, _, _, ki, hki, hno⟩
  cases hm with
  | tail _ h => cases h
  | head =>
    have : ki = ⟨5, c!"opt", .optionalMatch 4⟩ :=
      nodup_keys_unique (Ex.case1 5).wf.nodupId hki (by decide +kernel)
    subst this
    exact hno (.optional 4 [3])

/-- An entry that is evaluated. -/
example : ∃ ρ, EntryEnv (Ex.ti Ex.tc1) (Ex.entry 5) ρ := by
  have hcase := Ex.case1 5
  obtain ⟨c, hc, hs⟩ := hcase.checked
  obtain ⟨h1, h2, h3, h4, h5⟩ := (entryOk_iff hcase.wf Ex.kinds _).1 hcase.ok
  obtain ⟨ρ, h, _⟩ := C09_accepts hcase.found hcase.wf hc hcase.widths hs hcase.boolean
    (by
      simp only [NoOrderedExact, Ex.s1, Cmp.isOrder, true_and, false_implies, and_true, Bool.false_eq_true]
      refine ⟨fun _ w => ⟨fun h => ?_, nofun⟩, fun _ w => ⟨nofun, nofun⟩⟩
      cases h with
      | field _ hf => cases hf) Ex.kinds rfl h1 h2 h3 h4 h5
  exact ⟨ρ, h⟩

/-- C09 fails as stated: a ternary match for an exact key is an Internal error. -/
theorem C09_fails : ∃ sys p ci entry ti c, p4ToConstraintInfo sys p = .ok ci ∧
    lookup entry.tableId ci.tables = some ti ∧ ti.constraint = some c ∧ c.ty = .boolean ∧
    WrongKind ti entry ∧ reasonEntryViolatesConstraint entry ci = .err .internal := by
  refine ⟨Ex.sys, Ex.p4info Ex.tc1 Ex.ac1, Ex.ci Ex.tc1 Ex.ac1, { tableId := 1, matches_ := [⟨1, .ternary [5] [255]⟩] },
    Ex.ti Ex.tc1, (Ex.ti Ex.tc1).constraint.getD (.notSet {}), ?_, (Ex.case1 5).found, by decide +kernel,
    by decide +kernel, ?_, by decide +kernel⟩
  · exact Ex.get_of_isOk (by decide +kernel)
  · refine ⟨_, List.mem_cons_self, nofun, nofun, ⟨1, c!"ex", .exact 32⟩, by decide +kernel, ?_⟩
    intro h
    cases h

/-! ### C07: iteration order of maps -/

/-- C07: answers (satisfied, or violated with a certain message) do not depend on the iteration order of any
map. -/
theorem C07_answers {a b : ConstraintInfo} (h : InfoPerm a b) (hwf : InfoWF a) (entry : RtEntry) (msg : Str) :
    reasonEntryViolatesConstraint entry a = .ok msg ↔ reasonEntryViolatesConstraint entry b = .ok msg := by
  have key : ∀ {a b : ConstraintInfo}, InfoPerm a b → InfoWF a →
      reasonEntryViolatesConstraint entry a = .ok msg → reasonEntryViolatesConstraint entry b = .ok msg := by
    intro a b h hwf hr
    rcases infoPerm_table h hwf entry.tableId with ⟨h1, _⟩ | ⟨x, y, h1, h2, h3, h4⟩
    · unfold reasonEntryViolatesConstraint getTableInfo at hr
      rw [h1] at hr
      cases hr
    · rw [reason_found h1] at hr
      obtain ⟨m, hm, hr⟩ := Res.bind_eq_ok.1 hr
      rw [reason_found h2, tableReason_perm h3 h4 hm, Res.ok_bind, ← reasonTableAction_perm h hwf]
      exact hr
  exact ⟨key h hwf, key (infoPerm_symm h) (infoPerm_wf h hwf)⟩

/-- C07: nor do errors, if the keys of the table are of the five match kinds. Full statement: without this
hypothesis `hk`; it fails then (`C07_fails`). -/
theorem C07_order_partial {a b : ConstraintInfo} (h : InfoPerm a b) (hwf : InfoWF a) (entry : RtEntry)
    (hk : ∀ ti, lookup entry.tableId a.tables = some ti → ∀ n ki, (n, ki) ∈ ti.keysByName → MatchKind ki.ty) :
    reasonEntryViolatesConstraint entry a = reasonEntryViolatesConstraint entry b := by
  rcases infoPerm_table h hwf entry.tableId with ⟨h1, h2⟩ | ⟨x, y, h1, h2, h3, h4⟩
  · unfold reasonEntryViolatesConstraint getTableInfo
    rw [h1, h2]
  · rw [reason_found h1, reason_found h2, reasonTableAction_perm h hwf]
    have : tableReason entry x = tableReason entry y := by
      unfold tableReason
      rw [h3.constraint]
      cases y.constraint with
      | none => rfl
      | some c => exact checkConstraint_same (parseTableEntry_perm_eq h3 h4 (hk x h1) entry)
    rw [this]

/-- C07 for action invocations. -/
theorem C07_actions {a b : ConstraintInfo} (h : InfoPerm a b) (hwf : InfoWF a) (x : RtAction) :
    reasonAction x a = reasonAction x b := reasonAction_perm h hwf x

/-- The definitions of a program are well formed in the sense of `InfoWF`. -/
theorem C07_wellFormed {sys : Sys} {p : P4Info} {ci : ConstraintInfo} (h : p4ToConstraintInfo sys p = .ok ci) :
    InfoWF ci := infoWF_of h

/-- Reversing the maps of a table. -/
def Ex.reverseTable (t : TableInfo) : TableInfo :=
  ⟨t.id, t.name, t.constraint, t.source, t.keysById.reverse, t.keysByName.reverse⟩

/-- Reversing the maps of an action. -/
def Ex.reverseAction (a : ActionInfo) : ActionInfo :=
  ⟨a.id, a.name, a.constraint, a.source, a.paramsById.reverse, a.paramsByName.reverse⟩

/-- Reversing every map. -/
def Ex.reverse (ci : ConstraintInfo) : ConstraintInfo :=
  ⟨(ci.actions.map fun a => (a.1, Ex.reverseAction a.2)).reverse,
   (ci.tables.map fun t => (t.1, Ex.reverseTable t.2)).reverse⟩

theorem Ex.infoPerm_reverse (ci : ConstraintInfo) : InfoPerm ci (Ex.reverse ci) := by
  have key : ∀ {α : Type} {R : α → α → Prop} {f : α → α} (hf : ∀ x, R x (f x)) (xs : List (Nat × α)),
      ∃ ts, xs.Perm ts ∧ Each (fun x y => x.1 = y.1 ∧ R x.2 y.2) ts (xs.map fun x => (x.1, f x.2)).reverse := by
    intro α R f hf xs
    refine ⟨xs.reverse, (List.reverse_perm xs).symm, ?_⟩
    rw [← List.map_reverse]
    generalize xs.reverse = ys
    induction ys with
    | nil => exact .nil
    | cons y ys ih => exact .cons ⟨rfl, hf _⟩ ih
  exact ⟨key (R := TablePerm) (f := Ex.reverseTable) (fun t => ⟨rfl, rfl, rfl, rfl, (List.reverse_perm _).symm, (List.reverse_perm _).symm⟩) ci.tables,
    key (R := ActionPerm) (f := Ex.reverseAction) (fun t => ⟨rfl, rfl, rfl, rfl, (List.reverse_perm _).symm, (List.reverse_perm _).symm⟩) ci.actions⟩

/-- The example program with its maps reversed. -/
example : Ex.reverse (Ex.ci Ex.tc1 Ex.ac1) ≠ Ex.ci Ex.tc1 Ex.ac1 ∧
    reasonEntryViolatesConstraint (Ex.entry 6) (Ex.ci Ex.tc1 Ex.ac1) =
    reasonEntryViolatesConstraint (Ex.entry 6) (Ex.reverse (Ex.ci Ex.tc1 Ex.ac1)) := by
  refine ⟨by decide +kernel, ?_⟩
  have hwf : InfoWF (Ex.ci Ex.tc1 Ex.ac1) :=
    C07_wellFormed (sys := Ex.sys) (p := Ex.p4info Ex.tc1 Ex.ac1) (Ex.get_of_isOk (by decide +kernel))
  refine C07_order_partial (Ex.infoPerm_reverse _) hwf _ fun ti hti n ki hk => ?_
  rw [(Ex.case1 6).found] at hti
  cases hti
  exact Ex.kinds _ ki ((Ex.case1 6).wf.byName n ki hk).2

/-- A table with an exact key and a key of an unsupported match kind, and a constraint. -/
def Ex.oddDecl : TableDecl :=
  { preamble := ⟨1, c!"tbl", [c!"@entry_restriction(\"ex == 1\")"]⟩
    matchFields := [⟨1, c!"ex", 32, .matchType .exact⟩, ⟨2, c!"odd", 8, .otherMatchType c!"weird"⟩] }

/-- C07 fails as stated for errors: which of two defects of an entry is reported, and with which code, depends on
the iteration order. -/
theorem C07_fails : ∃ sys p ci ci' entry, p4ToConstraintInfo sys p = .ok ci ∧ InfoPerm ci ci' ∧
    reasonEntryViolatesConstraint entry ci = .err .internal ∧
    reasonEntryViolatesConstraint entry ci' = .err .invalidArgument := by
  refine ⟨Ex.sys, ⟨[Ex.oddDecl], []⟩, Ex.get ⟨[], []⟩ (p4ToConstraintInfo Ex.sys ⟨[Ex.oddDecl], []⟩), _,
    { tableId := 1, matches_ := [] }, Ex.get_of_isOk (by decide +kernel), Ex.infoPerm_reverse _, ?_, ?_⟩ <;> decide +kernel

end P4C
