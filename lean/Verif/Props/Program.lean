import Verif.Proofs.Program2
import Verif.Props.Verdict

/-
Properties of reading programs (C30 to C33, C46 to C48).
-/

namespace P4C

open Spec

/-! ### C30 -/

/-- C30, for annotations with content: the first restriction annotation counts. If its content is `("s1" ... "sn")`
with quote-free parts, the constraint is the parts joined by newlines, at the line and file set by the annotations
before it. Otherwise the program is rejected. Without restriction annotation there is no constraint.
Missing: the annotation without content, see `C30_fails`; contents with a NUL character. -/
theorem C30_annotation_partial {k : ConstraintKind} {p : Preamble} :
    (∀ pre body post f n, p.annotations = pre ++ (restriction k ++ body) :: post → (∀ a ∈ pre, ¬ restriction k <+: a) →
      body ≠ [] → '\x00' ∉ body → Position pre f n →
      (∀ parts, Quoted body parts →
        extractConstraint k p = .ok (some ⟨join c!"\n" parts, location k p.name f n⟩)) ∧
      ((∀ parts, ¬ Quoted body parts) → extractConstraint k p = .err .invalidArgument)) ∧
    ((∀ a ∈ p.annotations, ¬ restriction k <+: a) → extractConstraint k p = .ok none) := by
  refine ⟨?_, extract_none⟩
  intro pre body post f n ha hpre hb h0 hp
  have hc : cstr body = body := by
    have := cstr_split (rest := []) h0 nofun
    rwa [List.append_nil] at this
  have := (extract_at ha hpre hp).2
  rw [hc] at this
  exact this hb

example : extractConstraint .table ⟨1, c!"t", [c!"@foo", c!"@file(\"a.p4\")", c!"@line(12)",
    c!"@entry_restriction(\"k == 1;\" \"true\")", c!"@line(13)"]⟩ =
    .ok (some ⟨c!"k == 1;\ntrue", { line := 12, col := 0, src := .filePath c!"a.p4" }⟩) := by
  refine (C30_annotation_partial.1 [c!"@foo", c!"@file(\"a.p4\")", c!"@line(12)"] c!"(\"k == 1;\" \"true\")" [c!"@line(13)"]
    c!"a.p4" 12 rfl (by decide) nofun (by decide) ?_).1 [c!"k == 1;", c!"true"] ⟨nofun, by decide, rfl⟩
  refine .line (as := [c!"@foo", c!"@file(\"a.p4\")"]) (.file (as := [c!"@foo"]) (.other (as := []) .start ?_ ?_) ?_) ?_
  · exact consumeFile_none.1 (by decide)
  · exact consumeLine_none.1 (by decide)
  · exact consumeFile_iff.1 (by decide)
  · obtain ⟨n, h, hl⟩ := consumeLine_iff.1 (show consumeLine c!"@line(12)" = some 12 by decide)
    have : n = 12 := by omega
    subst this
    exact hl

/-- A stray quotation mark is rejected. -/
example : extractConstraint .table ⟨1, c!"t", [c!"@entry_restriction(\"a\"b\")"]⟩ = .err .invalidArgument := by decide

/-- The position set by annotations is always defined, and unique. -/
theorem C30_position (pre : List Str) : (∃ f n, Position pre f n) ∧
    ∀ f f' n n', Position pre f n → Position pre f' n' → f = f' ∧ n = n' :=
  ⟨position_exists pre, fun _ _ _ _ => position_unique⟩

example : ∃ f n, Position [c!"@line(3)", c!"@line(99999999999)", c!"@file(\"x\")y"] f n := (C30_position _).1

/-- C30 in full is false: a malformed annotation without any content is taken for no constraint at all, so that
everything is accepted. -/
theorem C30_fails : ∃ p : Preamble, p.annotations = [c!"@entry_restriction"] ∧
    (∀ parts, ¬ Quoted [] parts) ∧ extractConstraint .table p = .ok none :=
  ⟨⟨1, c!"t", [c!"@entry_restriction"]⟩, rfl, (by
    rintro parts ⟨_, _, h⟩
    cases h), by decide⟩

/-! ### C31 -/

/-- C31: reading a program succeeds exactly if ids are unique and all tables and actions are well formed. -/
theorem C31_succeeds {sys : Sys} {p : P4Info} : (∃ ci, p4ToConstraintInfo sys p = .ok ci) ↔
    (p.tables.map fun t => t.preamble.id).Nodup ∧ (p.actions.map fun a => a.preamble.id).Nodup ∧
    (∀ d ∈ p.tables, GoodTable sys.inetPton6 d) ∧ ∀ d ∈ p.actions, GoodAction sys.inetPton6 d :=
  p4ToConstraintInfo_succeeds

theorem Ex.accepted : p4ToConstraintInfo Ex.sys (Ex.p4info Ex.tc1 Ex.ac1) = .ok (Ex.ci Ex.tc1 Ex.ac1) := by rfl

example : (∀ d ∈ (Ex.p4info Ex.tc1 Ex.ac1).tables, GoodTable Ex.sys.inetPton6 d) :=
  (C31_succeeds.1 ⟨_, Ex.accepted⟩).2.2.1

example : ¬ ∀ d ∈ (Ex.p4info c!"nokey == 1" Ex.ac1).tables, GoodTable Ex.sys.inetPton6 d := by
  intro h
  have h1 : p4ToConstraintInfo Ex.sys (Ex.p4info c!"nokey == 1" Ex.ac1) = .err .invalidArgument := by rfl
  obtain ⟨ci, hci⟩ := C31_succeeds.2 ⟨by decide, by decide, h, (C31_succeeds.1 ⟨_, Ex.accepted⟩).2.2.2⟩
  rw [h1] at hci
  cases hci

/-- C31: on success each id is mapped to precisely the definition of the table or action with this id. -/
theorem C31_definitions {sys : Sys} {p : P4Info} {ci : ConstraintInfo} (h : p4ToConstraintInfo sys p = .ok ci) :
    (∀ d ∈ p.tables, ∃ ti, lookup d.preamble.id ci.tables = some ti ∧ TableIs sys.inetPton6 d ti) ∧
    (∀ id ti, lookup id ci.tables = some ti → ∃ d ∈ p.tables, d.preamble.id = id ∧ TableIs sys.inetPton6 d ti) ∧
    (∀ d ∈ p.actions, ∃ ai, lookup d.preamble.id ci.actions = some ai ∧ ActionIs sys.inetPton6 d ai) ∧
    (∀ id ai, lookup id ci.actions = some ai → ∃ d ∈ p.actions, d.preamble.id = id ∧ ActionIs sys.inetPton6 d ai) := by
  refine ⟨fun d hd => ?_, fun id ti hti => ?_, fun d hd => ?_, fun id ai hai => ?_⟩
  · obtain ⟨ti, h1, h2⟩ := table_declared h hd
    exact ⟨ti, h1, parseTableInfo_is h2⟩
  · obtain ⟨d, hd, h1, h2⟩ := (table_of_info h).1 hti
    exact ⟨d, hd, h1, parseTableInfo_is h2⟩
  · obtain ⟨ti, h1, h2⟩ := action_declared h hd
    exact ⟨ti, h1, parseActionInfo_is h2⟩
  · obtain ⟨d, hd, h1, h2⟩ := (action_of_info h).1 hai
    exact ⟨d, hd, h1, parseActionInfo_is h2⟩

example : ∃ ti, lookup 1 (Ex.ci Ex.tc1 Ex.ac1).tables = some ti ∧ TableIs Ex.sys.inetPton6 (Ex.tableDecl Ex.tc1) ti :=
  (C31_definitions Ex.accepted).1 _ List.mem_cons_self

/-- C31: the order of declarations does not matter: neither for success, nor for the definitions, nor for any
answer given later. -/
theorem C31_order {sys : Sys} {p p' : P4Info} (ht : p.tables.Perm p'.tables) (ha : p.actions.Perm p'.actions) :
    ((∃ ci, p4ToConstraintInfo sys p = .ok ci) ↔ ∃ ci, p4ToConstraintInfo sys p' = .ok ci) ∧
    ∀ ci ci', p4ToConstraintInfo sys p = .ok ci → p4ToConstraintInfo sys p' = .ok ci' →
      (∀ id, lookup id ci.tables = lookup id ci'.tables) ∧ (∀ id, lookup id ci.actions = lookup id ci'.actions) ∧
      ∀ entry, reasonEntryViolatesConstraint entry ci = reasonEntryViolatesConstraint entry ci' := by
  constructor
  · rw [C31_succeeds, C31_succeeds, (ht.map _).nodup_iff, (ha.map _).nodup_iff]
    constructor
    · rintro ⟨h1, h2, h3, h4⟩
      exact ⟨h1, h2, fun d hd => h3 d (ht.mem_iff.2 hd), fun d hd => h4 d (ha.mem_iff.2 hd)⟩
    · rintro ⟨h1, h2, h3, h4⟩
      exact ⟨h1, h2, fun d hd => h3 d (ht.mem_iff.1 hd), fun d hd => h4 d (ha.mem_iff.1 hd)⟩
  · intro ci ci' h h'
    obtain ⟨h1, h2⟩ := info_perm ht ha h h'
    exact ⟨h1, h2, reason_lookup h1 h2⟩

example : ∃ ci, p4ToConstraintInfo Ex.sys ⟨[Ex.freeTable, Ex.tableDecl Ex.tc1], (Ex.p4info Ex.tc1 Ex.ac1).actions⟩ = .ok ci :=
  (C31_order (p := Ex.p4info Ex.tc1 Ex.ac1)
    (p' := ⟨[Ex.freeTable, Ex.tableDecl Ex.tc1], (Ex.p4info Ex.tc1 Ex.ac1).actions⟩)
    (List.Perm.swap Ex.freeTable (Ex.tableDecl Ex.tc1) []) (.refl _)).1.1 ⟨_, Ex.accepted⟩

/-! ### C32 -/

/-- C32: by id and by name, a table has the same keys, one for each match field; likewise for actions. -/
theorem C32_maps {sys : Sys} {p : P4Info} {ci : ConstraintInfo} (h : p4ToConstraintInfo sys p = .ok ci) :
    (∀ d ∈ p.tables, ∃ ti vs, lookup d.preamble.id ci.tables = some ti ∧ Each KeyDecl d.matchFields vs ∧
      Distinct vs ∧ Maps vs ti.keysById ti.keysByName ∧
      ti.keysById.length = d.matchFields.length ∧ ti.keysByName.length = d.matchFields.length) ∧
    (∀ d ∈ p.actions, ∃ ai vs, lookup d.preamble.id ci.actions = some ai ∧ Each ParamIs d.params vs ∧
      Distinct vs ∧ Maps vs ai.paramsById ai.paramsByName ∧
      ai.paramsById.length = d.params.length ∧ ai.paramsByName.length = d.params.length) := by
  refine ⟨fun d hd => ?_, fun d hd => ?_⟩
  · obtain ⟨ti, h1, _, _, vs, r, h2, h3, h4, _⟩ := (C31_definitions h).1 d hd
    exact ⟨ti, vs, h1, h2, h3, h4, by rw [maps_length h4 h3, each_length h2], by rw [maps_length' h4 h3, each_length h2]⟩
  · obtain ⟨ti, h1, _, _, vs, r, h2, h3, h4, _⟩ := (C31_definitions h).2.2.1 d hd
    exact ⟨ti, vs, h1, h2, h3, h4, by rw [maps_length h4 h3, each_length h2], by rw [maps_length' h4 h3, each_length h2]⟩

example : (Ex.ti Ex.tc1).keysById.length = 5 := by
  obtain ⟨ti, vs, h1, _, _, _, h2, _⟩ := (C32_maps Ex.accepted).1 _ List.mem_cons_self
  have : lookup (Ex.tableDecl Ex.tc1).preamble.id (Ex.ci Ex.tc1 Ex.ac1).tables = some (Ex.ti Ex.tc1) := by rfl
  rw [this] at h1
  cases h1
  exact h2

/-! ### C33 -/

/-- C33: the coercion keeps the low 24 bits, sets the top byte to 2, is idempotent, and identifies two ids exactly
if their low 24 bits agree. -/
theorem C33_coercion (a b : BitVec 32) :
    (coerceToTableId a).toNat % 2 ^ 24 = a.toNat % 2 ^ 24 ∧ (coerceToTableId a).toNat / 2 ^ 24 = 2 ∧
    coerceToTableId (coerceToTableId a) = coerceToTableId a ∧
    (coerceToTableId a = coerceToTableId b ↔ a.toNat % 2 ^ 24 = b.toNat % 2 ^ 24) := by
  have ha := coerce_toNat a
  have hb := coerce_toNat b
  have haa := coerce_toNat (coerceToTableId a)
  refine ⟨by omega, by omega, BitVec.eq_of_toNat_eq (by omega), ?_⟩
  rw [← BitVec.toNat_inj]
  omega

example : coerceToTableId 0x01000005#32 = coerceToTableId 5#32 ∧ coerceToTableId 5#32 ≠ coerceToTableId 6#32 :=
  ⟨(C33_coercion _ _).2.2.2.2 (by decide), fun h => by have := (C33_coercion _ _).2.2.2.1 h; revert this; decide⟩

/-! ### C46 -/

/-- C46, the whole path from the text of a program to the verdict on an entry, in terms of the declarations: if the
program is accepted and table `d` has a constraint, then this is derived from its tokens by the grammar and has a
type. If this is boolean and the widths declared are not negative, every answer about an entry that fits the table
is right; and for constraints without ordered comparisons of exact keys there is an answer. If it is not boolean,
all entries are rejected as invalid arguments. Missing: an answer for all constraints, see `C01_verdict_fails`. -/
theorem C46_table_partial {sys : Sys} {p : P4Info} {ci : ConstraintInfo} (h : p4ToConstraintInfo sys p = .ok ci)
    {d : TableDecl} (hd : d ∈ p.tables) {vs : List VarInfo} (hvs : Each KeyDecl d.matchFields vs)
    {src : ConstraintSource} (hsrc : Attached .table d.preamble (some src)) :
    ∃ ts e s t, Lexed src.loc src.str ts ∧ Constraint sys.inetPton6 .table ts e ∧ abs e = some s ∧
      HasTy (keySig vs) s t ∧
      (t = .boolean → (∀ f ∈ d.matchFields, 0 ≤ f.bitwidth) → ∀ entry ρ, entry.tableId = d.preamble.id →
        entry.action = none → EntryFits vs entry → EntryMeans vs entry ρ →
        (reasonEntryViolatesConstraint entry ci = .ok [] → Holds (keySig vs) ρ s) ∧
        (∀ msg, reasonEntryViolatesConstraint entry ci = .ok msg → msg ≠ [] → Fails (keySig vs) ρ s) ∧
        (NoOrderedExact (keySig vs) s →
          (reasonEntryViolatesConstraint entry ci = .ok [] ↔ Holds (keySig vs) ρ s))) ∧
      (t ≠ .boolean → ∀ entry, entry.tableId = d.preamble.id →
        reasonEntryViolatesConstraint entry ci = .err .invalidArgument) := by
  obtain ⟨ti, hf, hti⟩ := table_declared h hd
  obtain ⟨vs', h1, h2, h3, h4⟩ := parseTableInfo_parts hti
  have := each_unique (R := KeyDecl) (fun _ _ _ => keyDecl_unique) hvs h1
  subst this
  rcases parseAndCheck_iff.1 h4 with ⟨ha, _⟩ | ⟨e, c, s, ha, he, hs, hi, hc⟩
  · cases attached_unique ha hsrc
  · have := attached_unique ha hsrc
    injection this with this
    subst this
    have hsig := sig_keys h3
    have hty := ((C15_accepts_exactly (src := ti.source) (sc := .table ti.keysByName) hs).1 c.ty).1 ⟨c, hi, rfl⟩
    rw [hsig] at hty
    refine ⟨_, e, s, c.ty, (C19_lexical_structure _ _).1 rfl, he, hs, hty, ?_, ?_⟩
    · intro hb hw entry ρ hid hact hfit hmean
      have tc : TableCase ci entry ti s ρ :=
        { found := by rw [hid]; exact hf
          wf := parseTableInfo_wf hti
          widths := by rw [hsig]; exact keySig_widths hvs hw
          checked := ⟨c, hc, ti.source, e, hi, hs⟩
          boolean := by rw [hsig, ← hb]; exact hty
          ok := (entryOk_fits h3).2 hfit
          env := (entryEnv_means h3).2 hmean }
      rw [← hsig]
      exact ⟨fun hr => (C45_no_wrong_verdict tc hact hr).1 rfl,
        fun msg hr hne => ((C45_no_wrong_verdict tc hact hr).2 hne).1,
        fun hn => C01_verdict_partial tc hact hn⟩
    · intro hb entry hid
      have hf' : lookup entry.tableId ci.tables = some ti := by rw [hid]; exact hf
      rw [reason_found hf']
      unfold tableReason
      rw [hc]
      dsimp only
      unfold checkConstraint
      rw [if_pos hb]
      rfl

/-- C46: an entry that fits the table has exactly one meaning; likewise for actions. -/
theorem C46_meaning {sys : Sys} {p : P4Info} {ci : ConstraintInfo} (h : p4ToConstraintInfo sys p = .ok ci) :
    (∀ d ∈ p.tables, ∀ vs entry, Each KeyDecl d.matchFields vs → EntryFits vs entry →
      ∃ ρ, EntryMeans vs entry ρ ∧ ∀ ρ', EntryMeans vs entry ρ' → ρ' = ρ) ∧
    (∀ d ∈ p.actions, ∀ vs a, Each ParamIs d.params vs → ActionFits vs a →
      ∃ ρ, ActionMeans vs a ρ ∧ ∀ ρ', ActionMeans vs a ρ' → ρ' = ρ) := by
  constructor
  · intro d hd vs entry hvs hfit
    obtain ⟨ti, hf, hti⟩ := table_declared h hd
    obtain ⟨vs', h1, h2, h3, h4⟩ := parseTableInfo_parts hti
    have := each_unique (R := KeyDecl) (fun _ _ _ => keyDecl_unique) hvs h1
    subst this
    have hwf := parseTableInfo_wf hti
    obtain ⟨ctx, hctx⟩ := (parseTableEntry_iff hwf entry).2 ((entryOk_fits h3).2 hfit)
    have hρ := (parseTableEntry_env hwf hctx).1
    exact ⟨envOf ctx, (entryEnv_means h3).1 hρ, fun ρ' h' => entryEnv_unique ((entryEnv_means h3).2 h') hρ⟩
  · intro d hd vs entry hvs hfit
    obtain ⟨ti, hf, hti⟩ := action_declared h hd
    obtain ⟨vs', h1, h2, h3, h4⟩ := parseActionInfo_parts hti
    have := each_unique (R := ParamIs) (fun _ _ _ => paramIs_unique) hvs h1
    subst this
    have hwf := parseActionInfo_wf hti
    obtain ⟨ctx, hctx⟩ := (parseAction_iff hwf entry).2 ((actionOk_fits h3).2 hfit).1
    have hρ := (parseAction_env hwf hctx).1
    exact ⟨envOf ctx, (actionEnv_means h3).1 hρ, fun ρ' h' => actionEnv_unique ((actionEnv_means h3).2 h') hρ⟩

/-- The keys of the table of the examples. -/
def Ex.keys : List VarInfo :=
  [⟨1, c!"ex", .exact 32⟩, ⟨2, c!"tern", .ternary 8⟩, ⟨3, c!"pre", .lpm 16⟩, ⟨4, c!"ran", .range 8⟩,
    ⟨5, c!"opt", .optionalMatch 4⟩]

theorem Ex.keysDeclared (tc : Str) : Each KeyDecl (Ex.tableDecl tc).matchFields Ex.keys :=
  .cons (.exact ..) (.cons (.ternary ..) (.cons (.lpm ..) (.cons (.range ..) (.cons (.optional ..) .nil))))

theorem Ex.entryFits (n : UInt8) : EntryFits Ex.keys (Ex.entry n) where
  known := by
    intro m hm
    rcases List.mem_cons.1 hm with rfl | hm
    · exact ⟨_, List.mem_cons_self, rfl, _, .exact ..⟩
    · rcases List.mem_cons.1 hm with rfl | hm
      · exact ⟨⟨5, c!"opt", .optionalMatch 4⟩, by decide, rfl, _, .optional ..⟩
      · cases hm
  once := by
    show ([1, 5] : List Nat).Nodup
    decide
  complete := by
    intro ki hk
    simp only [Ex.keys, List.mem_cons, List.not_mem_nil, or_false] at hk
    rcases hk with rfl | rfl | rfl | rfl | rfl
    · exact .inl ⟨⟨1, .exact [n]⟩, List.mem_cons_self, rfl⟩
    · exact .inr ⟨_, .ternary _⟩
    · exact .inr ⟨_, .lpm _⟩
    · exact .inr ⟨_, .range _⟩
    · exact .inr ⟨_, .optional _⟩

/-- C44 fails for commutativity: two accepted constraints that differ in the order of operands, and a consistent entry that
satisfies one and on which the other fails. -/
theorem C44_fails :
    p4ToConstraintInfo Ex.sys (Ex.p4info c!"ex == 7 || ex < 9" c!"true") = .ok (Ex.ci c!"ex == 7 || ex < 9" c!"true") ∧
    p4ToConstraintInfo Ex.sys (Ex.p4info c!"ex < 9 || ex == 7" c!"true") = .ok (Ex.ci c!"ex < 9 || ex == 7" c!"true") ∧
    EntryFits Ex.keys (Ex.entry 7) ∧
    reasonEntryViolatesConstraint (Ex.entry 7) (Ex.ci c!"ex == 7 || ex < 9" c!"true") = .ok [] ∧
    reasonEntryViolatesConstraint (Ex.entry 7) (Ex.ci c!"ex < 9 || ex == 7" c!"true") = .err .internal :=
  ⟨Ex.get_of_isOk (by decide +kernel), Ex.get_of_isOk (by decide +kernel), Ex.entryFits 7, by decide +kernel,
    by decide +kernel⟩

/-- The first constraint of the examples holds of the entry with key 5, by way of the program. -/
example : ∃ src s ρ, Attached .table (Ex.tableDecl Ex.tc1).preamble (some src) ∧ EntryMeans Ex.keys (Ex.entry 5) ρ ∧
    Holds (keySig Ex.keys) ρ s := by
  obtain ⟨ρ, hρ, _⟩ := (C46_meaning Ex.accepted).1 _ List.mem_cons_self _ _ (Ex.keysDeclared _) (Ex.entryFits 5)
  have ha : Attached .table (Ex.tableDecl Ex.tc1).preamble
      (some ⟨Ex.tc1, { line := 0, col := 0, src := .tableName c!"tbl" }⟩) := attached_iff.1 (by rfl)
  obtain ⟨ts, e, s, t, h1, h2, h3, h4, h5, h6⟩ := C46_table_partial Ex.accepted (List.mem_cons_self (a := Ex.tableDecl Ex.tc1))
    (Ex.keysDeclared _) ha
  have hok : reasonEntryViolatesConstraint (Ex.entry 5) (Ex.ci Ex.tc1 Ex.ac1) = .ok [] := by decide +kernel
  refine ⟨_, s, ρ, ha, hρ, ?_⟩
  by_cases ht : t = .boolean
  · exact (h5 ht (by decide) _ _ rfl rfl (Ex.entryFits 5) hρ).1 hok
  · have := h6 ht (Ex.entry 5) rfl
    rw [hok] at this
    cases this

/-- C46 for tables without constraint. -/
theorem C46_table_unconstrained {sys : Sys} {p : P4Info} {ci : ConstraintInfo} (h : p4ToConstraintInfo sys p = .ok ci)
    {d : TableDecl} (hd : d ∈ p.tables) (hsrc : Attached .table d.preamble none) {entry : RtEntry}
    (hid : entry.tableId = d.preamble.id) (ha : entry.action = none) :
    reasonEntryViolatesConstraint entry ci = .ok [] := by
  obtain ⟨ti, hf, hti⟩ := table_declared h hd
  obtain ⟨vs', h1, h2, h3, h4⟩ := parseTableInfo_parts hti
  rcases parseAndCheck_iff.1 h4 with ⟨_, hc, _⟩ | ⟨e, c, s, ha, _⟩
  · exact C10_unconstrained (ti := ti) (as := []) (by rw [hid]; exact hf) hc (by rw [ha]; rfl) nofun
  · cases attached_unique ha hsrc

/-- C46 for actions. Missing: constraints with `::priority`, see `C02_fails_priority`. -/
theorem C46_action_partial {sys : Sys} {p : P4Info} {ci : ConstraintInfo} (h : p4ToConstraintInfo sys p = .ok ci)
    {d : ActionDecl} (hd : d ∈ p.actions) {vs : List VarInfo} (hvs : Each ParamIs d.params vs)
    {src : ConstraintSource} (hsrc : Attached .action d.preamble (some src)) :
    ∃ ts e s t, Lexed src.loc src.str ts ∧ Constraint sys.inetPton6 .action ts e ∧ abs e = some s ∧
      HasTy (paramSig vs) s t ∧
      (t = .boolean → (∀ f ∈ d.params, 0 ≤ f.bitwidth) → AttrFree s → ∀ a ρ, a.actionId = d.preamble.id →
        ActionFits vs a → ActionMeans vs a ρ → (reasonAction a ci = .ok [] ↔ Holds (paramSig vs) ρ s)) ∧
      (t ≠ .boolean → ∀ a, a.actionId = d.preamble.id → reasonAction a ci = .err .invalidArgument) := by
  obtain ⟨ai, hf, hai⟩ := action_declared h hd
  obtain ⟨vs', h1, h2, h3, h4⟩ := parseActionInfo_parts hai
  have := each_unique (R := ParamIs) (fun _ _ _ => paramIs_unique) hvs h1
  subst this
  rcases parseAndCheck_iff.1 h4 with ⟨ha, _⟩ | ⟨e, c, s, ha, he, hs, hi, hc⟩
  · cases attached_unique ha hsrc
  · have := attached_unique ha hsrc
    injection this with this
    subst this
    have hsig := sig_params h3
    have hty := ((C15_accepts_exactly (src := ai.source) (sc := .action ai.paramsByName) hs).1 c.ty).1 ⟨c, hi, rfl⟩
    rw [hsig] at hty
    refine ⟨_, e, s, c.ty, (C19_lexical_structure _ _).1 rfl, he, hs, hty, ?_, ?_⟩
    · intro hb hw hattr a ρ hid hfit hmean
      obtain ⟨hok, hcomp⟩ := (actionOk_fits h3).2 hfit
      have ac : ActionCase ci a ai s ρ :=
        { found := by rw [hid]; exact hf
          wf := parseActionInfo_wf hai
          widths := by rw [hsig]; exact paramSig_widths hvs hw
          bits := parseActionInfo_bits hai
          checked := ⟨c, hc, ai.source, e, hi, hs⟩
          boolean := by rw [hsig, ← hb]; exact hty
          ok := hok
          complete := hcomp
          env := (actionEnv_means h3).2 hmean }
      rw [← hsig]
      exact C01_action_partial ac hattr
    · intro hb a hid
      rw [reasonAction_found (by rw [hid]; exact hf) hc]
      unfold checkConstraint
      rw [if_pos hb]

example : reasonEntryViolatesConstraint { tableId := 2, matches_ := [] } (Ex.ci Ex.tc1 Ex.ac1) = .ok [] :=
  C46_table_unconstrained Ex.accepted (d := Ex.freeTable) (List.mem_cons_of_mem _ List.mem_cons_self)
    (attached_iff.1 (by rfl)) rfl rfl

/-- The parameters of the action of the examples. -/
def Ex.params : List VarInfo := [⟨1, c!"p", .fixedUnsigned 8⟩, ⟨2, c!"q", .fixedUnsigned 8⟩]

theorem Ex.actionFits (a b : UInt8) : ActionFits Ex.params (Ex.action a b) where
  known := by
    intro m hm
    rcases List.mem_cons.1 hm with rfl | hm
    · exact ⟨_, List.mem_cons_self, rfl⟩
    · rcases List.mem_cons.1 hm with rfl | hm
      · exact ⟨⟨2, c!"q", .fixedUnsigned 8⟩, by decide, rfl⟩
      · cases hm
  once := by
    show ([1, 2] : List Nat).Nodup
    decide
  complete := by
    intro pi hp
    simp only [Ex.params, List.mem_cons, List.not_mem_nil, or_false] at hp
    rcases hp with rfl | rfl
    · exact ⟨[a], List.mem_cons_self⟩
    · exact ⟨[b], List.mem_cons_of_mem _ List.mem_cons_self⟩

example : ∃ ts e s t ρ, Lexed { line := 0, col := 0, src := .actionName c!"act" } Ex.ac1 ts ∧ Constraint Ex.sys.inetPton6 .action ts e ∧ abs e = some s ∧
    HasTy (paramSig Ex.params) s t ∧ ActionMeans Ex.params (Ex.action 3 4) ρ := by
  obtain ⟨ρ, hρ, _⟩ := (C46_meaning Ex.accepted).2 _ List.mem_cons_self Ex.params _ (.cons (.bits ..) (.cons (.bits ..) .nil))
    (Ex.actionFits 3 4)
  obtain ⟨ts, e, s, t, h1, h2, h3, h4, _⟩ := C46_action_partial Ex.accepted (List.mem_cons_self (a := Ex.actionDecl Ex.ac1))
    (.cons (.bits ..) (.cons (.bits ..) .nil))
    (src := ⟨Ex.ac1, { line := 0, col := 0, src := .actionName c!"act" }⟩) (attached_iff.1 (by rfl))
  exact ⟨ts, e, s, t, ρ, h1, h2, h3, h4, hρ⟩

/-! ### C47 -/

/-- What is reported about an entry file. -/
inductive Spec.Reported (ci : ConstraintInfo) : FileRead RtEntry → Report → Prop where
  | missing : Spec.Reported ci .missing .notFound
  | malformed : Spec.Reported ci .malformed .unableToParse
  | satisfied {e : RtEntry} : reasonEntryViolatesConstraint { e with tableId := 2 * 2 ^ 24 + e.tableId % 2 ^ 24 } ci = .ok [] →
      Spec.Reported ci (.parsed e) .satisfied
  | violated {e : RtEntry} {msg : Str} : msg ≠ [] →
      reasonEntryViolatesConstraint { e with tableId := 2 * 2 ^ 24 + e.tableId % 2 ^ 24 } ci = .ok msg →
      Spec.Reported ci (.parsed e) (.violated msg)
  | error {e : RtEntry} {x : Code} :
      reasonEntryViolatesConstraint { e with tableId := 2 * 2 ^ 24 + e.tableId % 2 ^ 24 } ci = .err x →
      Spec.Reported ci (.parsed e) (.error x)

theorem checkFile_iff {ci : ConstraintInfo} {f : FileRead RtEntry} {r : Report} :
    checkFile ci f = .ok r ↔ Spec.Reported ci f r := by
  cases f with
  | missing =>
    exact ⟨fun h => by cases h; exact .missing, fun h => by cases h; rfl⟩
  | malformed =>
    exact ⟨fun h => by cases h; exact .malformed, fun h => by cases h; rfl⟩
  | parsed e =>
    unfold checkFile
    dsimp only
    rw [coerceId_eq]
    constructor
    · intro h
      split at h
      · rename_i hr
        cases h
        exact .satisfied hr
      · rename_i hr
        cases h
        exact .violated nofun hr
      · rename_i hr
        cases h
        exact .error hr
      · cases h
      · cases h
    · intro h
      cases h with
      | satisfied hr => rw [hr]
      | error hr => rw [hr]
      | violated hne hr =>
        rename_i msg
        rw [hr]
        cases msg with
        | nil => exact (hne rfl).elim
        | cons c cs => rfl

/-- C47: p4check fails with status 1 and without reports exactly if no program is given, or it is not accepted (with
table ids in the canonical form). Otherwise it exits with status 0 and reports on every entry file, in order, what
holds of this file alone. -/
theorem C47_p4check {sys : Sys} {name : Str} {program : FileRead P4Info} {files : List (Str × FileRead RtEntry)}
    {status : Nat} {rs : List (Str × Report)} :
    p4check sys name program files = .ok ⟨status, rs⟩ ↔
      (status = 1 ∧ rs = [] ∧ (name = [] ∨ program = .missing ∨ program = .malformed ∨
        ∃ p x, program = .parsed p ∧ p4ToConstraintInfo sys (coerceTables p) = .err x)) ∨
      (status = 0 ∧ name ≠ [] ∧ ∃ p ci, program = .parsed p ∧ p4ToConstraintInfo sys (coerceTables p) = .ok ci ∧
        Each (fun f r => r.1 = f.1 ∧ Spec.Reported ci f.2 r.2) files rs) := by
  have hfiles : ∀ ci, (checkFiles ci files = .ok rs ↔ Each (fun f r => r.1 = f.1 ∧ Spec.Reported ci f.2 r.2) files rs) := by
    intro ci
    rw [checkFiles_ok]
    simp only [checkFile_iff]
  unfold p4check
  by_cases hn : name = []
  · rw [if_pos hn]
    constructor
    · intro h
      injection h with h
      injection h with h1 h2
      exact .inl ⟨h1.symm, h2.symm, .inl hn⟩
    · rintro (⟨rfl, rfl, _⟩ | ⟨_, h, _⟩)
      · rfl
      · exact (h hn).elim
  · rw [if_neg hn]
    cases program with
    | missing =>
      constructor
      · intro h
        injection h with h
        injection h with h1 h2
        exact .inl ⟨h1.symm, h2.symm, .inr (.inl rfl)⟩
      · rintro (⟨rfl, rfl, _⟩ | ⟨_, _, p, ci, h, _⟩)
        · rfl
        · cases h
    | malformed =>
      constructor
      · intro h
        injection h with h
        injection h with h1 h2
        exact .inl ⟨h1.symm, h2.symm, .inr (.inr (.inl rfl))⟩
      · rintro (⟨rfl, rfl, _⟩ | ⟨_, _, p, ci, h, _⟩)
        · rfl
        · cases h
    | parsed p =>
      dsimp only
      cases hp : p4ToConstraintInfo sys (coerceTables p) with
      | ok ci =>
        simp only [Res.bind_eq_ok]
        constructor
        · rintro ⟨rs', hrs, h⟩
          injection h with h
          injection h with h1 h2
          subst h2
          exact .inr ⟨h1.symm, hn, p, ci, rfl, hp, (hfiles ci).1 hrs⟩
        · rintro (⟨_, _, h | h | h | ⟨p', x, h, hx⟩⟩ | ⟨rfl, _, p', ci', h, hci, he⟩)
          · exact (hn h).elim
          · cases h
          · cases h
          · cases h
            rw [hp] at hx
            cases hx
          · cases h
            rw [hp] at hci
            cases hci
            exact ⟨rs, (hfiles ci).2 he, rfl⟩
      | err x =>
        constructor
        · intro h
          injection h with h
          injection h with h1 h2
          exact .inl ⟨h1.symm, h2.symm, .inr (.inr (.inr ⟨p, x, rfl, hp⟩))⟩
        · rintro (⟨rfl, rfl, _⟩ | ⟨_, _, p', ci, h, hci, _⟩)
          · rfl
          · cases h
            rw [hp] at hci
            cases hci
      | crash =>
        constructor
        · nofun
        · rintro (⟨_, _, h | h | h | ⟨p', x, h, hx⟩⟩ | ⟨_, _, p', ci, h, hci, _⟩)
          · exact (hn h).elim
          · cases h
          · cases h
          · cases h
            rw [hp] at hx
            cases hx
          · cases h
            rw [hp] at hci
            cases hci
      | oof =>
        constructor
        · nofun
        · rintro (⟨_, _, h | h | h | ⟨p', x, h, hx⟩⟩ | ⟨_, _, p', ci, h, hci, _⟩)
          · exact (hn h).elim
          · cases h
          · cases h
          · cases h
            rw [hp] at hx
            cases hx
          · cases h
            rw [hp] at hci
            cases hci

/-- C47: an entry file may refer to a table by any id with the right low 24 bits, and then is judged by the
definition of this table. -/
theorem C47_ids {sys : Sys} {p : P4Info} {ci : ConstraintInfo} (h : p4ToConstraintInfo sys (coerceTables p) = .ok ci)
    {d : TableDecl} (hd : d ∈ p.tables) {e : RtEntry} (hid : e.tableId % 2 ^ 24 = d.preamble.id % 2 ^ 24) :
    ∃ ti, lookup (2 * 2 ^ 24 + e.tableId % 2 ^ 24) ci.tables = some ti ∧
      TableIs sys.inetPton6 { d with preamble := { d.preamble with id := 2 * 2 ^ 24 + d.preamble.id % 2 ^ 24 } } ti := by
  have hmem : { d with preamble := { d.preamble with id := coerceId d.preamble.id } } ∈ (coerceTables p).tables :=
    List.mem_map.2 ⟨d, hd, rfl⟩
  obtain ⟨ti, h1, h2⟩ := (C31_definitions h).1 _ hmem
  rw [coerceId_eq] at h1 h2
  exact ⟨ti, by rw [hid]; exact h1, h2⟩

/-- C47: programs with two tables whose ids agree in the low 24 bits are rejected. -/
theorem C47_collision {sys : Sys} {name : Str} {p : P4Info} {files : List (Str × FileRead RtEntry)} {pre mid post : List TableDecl}
    {d d' : TableDecl} (hp : p.tables = pre ++ d :: mid ++ d' :: post)
    (hid : d.preamble.id % 2 ^ 24 = d'.preamble.id % 2 ^ 24) (status : Nat) (rs : List (Str × Report))
    (h : p4check sys name (.parsed p) files = .ok ⟨status, rs⟩) : status = 1 ∧ rs = [] := by
  rcases C47_p4check.1 h with ⟨h1, h2, _⟩ | ⟨_, _, p', ci, hpp, hci, _⟩
  · exact ⟨h1, h2⟩
  · exfalso
    cases hpp
    have hnd := (C31_succeeds.1 ⟨ci, hci⟩).1
    unfold coerceTables at hnd
    dsimp only at hnd
    rw [hp, List.map_map] at hnd
    simp only [List.map_append, List.map_cons, List.append_assoc, List.cons_append] at hnd
    have h3 := (List.nodup_append.1 hnd).2.1
    have h4 := (List.nodup_cons.1 h3).1
    apply h4
    rw [List.mem_append]
    refine .inr (List.mem_cons.2 (.inl ?_))
    exact (coerceId_iff _ _).2 hid

example : p4check Ex.sys c!"prog" (.parsed (Ex.p4info Ex.tc1 Ex.ac1))
      [(c!"a", .parsed (Ex.entry 5)), (c!"b", .missing), (c!"c", .malformed), (c!"d", .parsed { Ex.entry 5 with tableId := 9 })] =
    .ok ⟨0, [(c!"a", .satisfied), (c!"b", .notFound), (c!"c", .unableToParse), (c!"d", .error .invalidArgument)]⟩ := by rfl

example : p4check Ex.sys c!"prog" (.parsed ⟨[{ Ex.freeTable with preamble := ⟨0x01000002, c!"x", []⟩ }, Ex.freeTable], []⟩) [] =
    .ok ⟨1, []⟩ := by rfl

/-! ### C48 -/

/-- C48, as far as it holds: reading a program ends with definitions or with an InvalidArgument error, if all
constraints are on one line each. Missing: constraints of several lines, see `C48_fails`. -/
theorem C48_errors_partial {sys : Sys} {p : P4Info}
    (ht : ∀ d ∈ p.tables, ∀ src, Attached .table d.preamble (some src) → '\n' ∉ src.str ∧ '\r' ∉ src.str)
    (ha : ∀ d ∈ p.actions, ∀ src, Attached .action d.preamble (some src) → '\n' ∉ src.str ∧ '\r' ∉ src.str) :
    (∃ ci, p4ToConstraintInfo sys p = .ok ci) ∨ p4ToConstraintInfo sys p = .err .invalidArgument := by
  rcases p4ToConstraintInfo_outcome (sys := sys) (p := p) with h | h | ⟨_, ⟨d, hd, h⟩ | ⟨d, hd, h⟩⟩
  · exact .inl h
  · exact .inr h
  · exact (h (ht d hd)).elim
  · exact (h (ha d hd)).elim

example : p4ToConstraintInfo Ex.sys (Ex.p4info c!"-(1 <  5)" c!"true") = .err .invalidArgument := by rfl

/-- C48 without restriction: the error is always InvalidArgument; the only alternative is a crash. -/
theorem C48_outcomes (sys : Sys) (p : P4Info) :
    (∃ ci, p4ToConstraintInfo sys p = .ok ci) ∨ p4ToConstraintInfo sys p = .err .invalidArgument ∨
      p4ToConstraintInfo sys p = .crash := by
  rcases p4ToConstraintInfo_outcome (sys := sys) (p := p) with h | h | ⟨h, _⟩
  · exact .inl h
  · exact .inr (.inl h)
  · exact .inr (.inr h)

/-- C48 is false for constraints of several lines: a type error in `-(1\n<  5)` makes the process crash while the
error message is built. -/
theorem C48_fails : p4ToConstraintInfo Ex.sys (Ex.p4info c!"-(1\n<  5)" c!"true") = .crash := by rfl

end P4C
