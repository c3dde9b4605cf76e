import Verif.Proofs.NoConflict
import Verif.Proofs.Solver3
import Verif.Props.Sorts
import Verif.Props.SymbolicEx

/-
C105: the interpreter and the constraint solver do not contradict each other on syntax trees of any origin.
-/

namespace P4C

open Spec

section
variable {sys : Sys} {p : P4Info} {ci : ConstraintInfo} (h : p4ToConstraintInfo sys p = .ok ci) {d : TableDecl}
  (hd : d ∈ p.tables) {ti : TableInfo} (hti : lookup d.preamble.id ci.tables = some ti) {skip : Str → Bool}
  {z : Z3Oracle}

include h hd hti in
/-- C105: an entry that the solver returns is not found to violate a tree that the solver accepted: if there is a verdict on it,
with the tree as the constraint of the table, then it satisfies the tree. Missing: parts that the two read differently
(`C105_fails_ordered`, `C105_fails_negated`, `C105_fails_field`). -/
theorem C105_returned_partial (hz : z.Sound) {s s' : Solver} {cs : List Expr}
    (hr : Reachable z sys ti (fun n => .ok (skip n)) s cs) {entry : RtEntry} (hc : s.concretize z = (.ok entry, s')) {c : Expr}
    (hm : c ∈ cs)
    (ha : ∀ ctx, parseTableEntry entry ti = .ok ctx → Everywhere (ReadAlike (DeclKey d skip) (DeclAttr d) ctx) c)
    {ci' : ConstraintInfo} (hci : lookup entry.tableId ci'.tables = some { ti with constraint := some c }) {msg : Str}
    (hv : reasonEntryViolatesConstraint entry ci' = .ok msg) : msg = [] := by
  have hparse := declared_parse h hd hti
  obtain ⟨vs, hvs, _, hmaps, _⟩ := parseTableInfo_parts hparse
  have hwf := parseTableInfo_wf hparse
  obtain ⟨ks, as, hi⟩ := reachable_inv hr
  obtain ⟨_, _, _, hact, _, hkeys, _⟩ := concretize_spec hi hz hwf hc
  rw [reason_noAction hci hact] at hv
  by_cases hne : msg = []
  · exact hne
  obtain ⟨_, ctx, _, _, _, hp, hb, _⟩ := checkConstraint_reports.1 ⟨hv, hne⟩
  rw [parseTableEntry_constraint] at hp
  have hok : EntryOk ti entry := (parseTableEntry_iff hwf entry).1 ⟨ctx, hp⟩
  have ho : Omittable ti fun n => (.ok (skip n) : Res Bool) = .ok true := by
    intro n ki hki hsk
    rcases hkeys n ki hki with ⟨_, hno⟩ | ⟨hsk', _⟩
    · rcases hok.complete ki.id ki (hwf.byName n ki hki).2 with ⟨fm, hfm, hid⟩ | hw
      · exact (hno fm hfm hid).elim
      · exact hw
    · rw [hsk] at hsk'
      cases hsk'
  obtain ⟨_, m, ρ, _, hsat, _, henv, hcorr⟩ := concretize_env hi hz hwf ho hc
  rw [entryEnv_unique henv (parseTableEntry_env hwf hp).1] at hcorr
  obtain ⟨ts, hts, h1, _⟩ := hi.assertions
  obtain ⟨t, ht, src, heval⟩ := h1 c hm
  have htrue : t.den m = true := hsat t (by rw [hts]; exact List.mem_append_right _ ht)
  have hsym : evalSym src s.env c = .ok (.expr ⟨.bool, t⟩) := by
    unfold evaluateConstraintSymbolically at heval
    split at heval
    · cases heval
    · exact symToExpr_val.1 heval
  have := read_alike (solver_keys hvs hmaps hwf hi) (solver_attrs hvs hmaps hi) (solver_attrs_int hi) hcorr (ha ctx hp) hsym
    (evalBoolP_ok.1 hb)
  have : t.den m = false := this
  rw [htrue] at this
  cases this

include h hd hti in
/-- C105: a tree is not refused if some entry in canonical form is found to satisfy it, and all the trees that were accepted
before. Missing: the same as in `C105_returned_partial`, and tables with keys whose names Z3 does not tell apart (C40). -/
theorem C105_refused_partial (hz : z.Sound) (hdec : Z3Oracle.Decides z) (hn : NamesDistinct ti) {s : Solver} {cs : List Expr}
    (hr : Reachable z sys ti (fun n => .ok (skip n)) s cs) {c : Expr} {src : ConstraintSource} {b : Bool}
    (hb : (s.addConstraint z c src).1 = .ok b) {entry : RtEntry}
    (hcan : CanonicalEntry ti (fun n => (.ok (skip n) : Res Bool) = .ok true) entry)
    (ha : ∀ c' ∈ c :: cs, ∀ ctx, parseTableEntry entry ti = .ok ctx →
      Everywhere (ReadAlike (DeclKey d skip) (DeclAttr d) ctx) c')
    (hv : ∀ c' ∈ c :: cs, ∃ ci', lookup entry.tableId ci'.tables = some { ti with constraint := some c' } ∧
      reasonEntryViolatesConstraint entry ci' = .ok []) : b = true := by
  have hparse := declared_parse h hd hti
  obtain ⟨vs, hvs, _, hmaps, _⟩ := parseTableInfo_parts hparse
  have hwf := parseTableInfo_wf hparse
  obtain ⟨ks, as, hi⟩ := reachable_inv hr
  have hval : ∀ c' ∈ c :: cs, ∃ ctx, parseTableEntry entry ti = .ok ctx ∧ evalP ctx c' = .ok (.bool true) := by
    intro c' hc'
    obtain ⟨ci', hl, hrs⟩ := hv c' hc'
    have := ((reason_nil hl).1 hrs).1
    obtain ⟨_, ctx, hp, he⟩ := checkConstraint_satisfied.1 this
    exact ⟨ctx, by rwa [parseTableEntry_constraint] at hp, evalBoolP_ok.1 he⟩
  obtain ⟨ctx, hp, _⟩ := hval c (.head _)
  obtain ⟨hbase, hcorr⟩ := interpOf_env hi hwf hn hcan (parseTableEntry_env hwf hp).1
  have htrue : ∀ c' ∈ c :: cs, ∀ src t, evalSym src s.env c' = .ok (.expr ⟨.bool, t⟩) →
      t.den (interpOf ti (envOf ctx)) = true := by
    intro c' hc' src t ht
    obtain ⟨ctx', hp', he⟩ := hval c' hc'
    rw [hp] at hp'
    cases hp'
    exact read_alike (solver_keys hvs hmaps hwf hi) (solver_attrs hvs hmaps hi) (solver_attrs_int hi) hcorr (ha c' hc' ctx hp) ht he
  have hunfold : ∀ {c' : Expr} {src : ConstraintSource} {x : Z3Expr}, evaluateConstraintSymbolically c' src s.env = .ok x →
      evalSym src s.env c' = .ok (.expr x) := by
    intro c' src x heval
    unfold evaluateConstraintSymbolically at heval
    split at heval
    · cases heval
    · exact symToExpr_val.1 heval
  have hall : ∀ a ∈ s.assertions, a.den (interpOf ti (envOf ctx)) = true := by
    obtain ⟨ts, hts, _, h2⟩ := hi.assertions
    intro a ha
    rw [hts] at ha
    rcases List.mem_append.1 ha with ha | ha
    · exact hbase a ha
    · obtain ⟨c', hc', src', he⟩ := h2 a ha
      exact htrue c' (List.mem_cons_of_mem _ hc') src' a (hunfold he)
  unfold Solver.addConstraint Solver.check at hb
  dsimp only at hb
  split at hb
  · split at hb
    · rename_i t ht
      have ht' := htrue c (.head _) src t (hunfold ht)
      split at hb
      · cases hb; rfl
      · rename_i hns
        exfalso
        cases hcheck : z.check (s.calls + 1) (s.assertions ++ [t]) with
        | sat val hi => exact hns _ _ hcheck
        | unknown => exact hdec _ _ hcheck
        | unsat =>
          obtain ⟨a, ha, hf⟩ := hz.unsat _ _ hcheck (interpOf ti (envOf ctx))
          rcases List.mem_append.1 ha with ha | ha
          · rw [hall a ha] at hf; cases hf
          · rw [List.mem_singleton.1 ha, ht'] at hf; cases hf
    all_goals cases hb
  · cases hb
end

/-! ### Examples -/

namespace Ex

/-- A table whose constraint compares a bit string in order. -/
def alikeBelow : TableDecl := symDecl c!"ex::value < 0"

/-- A table without restriction. -/
def alikeFree : TableDecl := symDecl c!"true"

/-- A table with one key, whose name is empty. -/
def alikeUnnamed : TableDecl := { symDecl c!"true" with matchFields := [⟨1, [], 32, .matchType .exact⟩] }

/-- What is known about a node that is said to stem from the text of the constraint. -/
def alikeAt (t : Ty) : Info := ⟨⟨0, 0, .tableName c!"tbl"⟩, ⟨0, 4, .tableName c!"tbl"⟩, t⟩

/-- A constant of 32 bits. -/
def alikeBits (s : Str) : Expr := .typeCast (alikeAt (.fixedUnsigned 32)) (.intConst (alikeAt .arbitraryInt) s)

/-- The tree of `ex == 5`. -/
def alikeFive : Expr := .bin (alikeAt .boolean) .eq (.key (alikeAt (.exact 32)) c!"ex")
  (.typeCast (alikeAt (.exact 32)) (alikeBits c!"5"))

/-- The tree of `-ex::value == 5`, which the type checker does not let pass. -/
def alikeNeg : Expr := .bin (alikeAt .boolean) .eq (.arithNeg (alikeAt (.fixedUnsigned 32))
  (.field (alikeAt (.fixedUnsigned 32)) (.key (alikeAt (.exact 32)) c!"ex") c!"value")) (alikeBits c!"5")

/-- A tree in which 6 is compared to the field of the constant 5. -/
def alikeField : Expr := .bin (alikeAt .boolean) .eq
  (.field (alikeAt (.fixedUnsigned 32)) (.typeCast (alikeAt (.exact 32)) (alikeBits c!"5")) c!"value") (alikeBits c!"6")

/-- A solver for a table, if Z3 finds this model. -/
def alikeSolver (m : Interp) (d : TableDecl) : Solver :=
  get ⟨0, [], symTi d, {}, fun _ => .ok false⟩ (Solver.create (constOracle m) (symTi d) fun _ => .ok false)

/-- The definitions of the table, but with this tree as the constraint. -/
def alikeCi (d : TableDecl) (c : Expr) : ConstraintInfo := ⟨[], [(1, { symTi d with constraint := some c })]⟩

/-- The entry that a solver returns. -/
def alikeEntry (m : Interp) (s : Solver) : RtEntry := get ⟨0, [], 0, none⟩ (s.concretize (constOracle m)).1

/-- Models that Z3 can find. -/
def alikeTop : Interp := model [(c!"ex", 2147483648)]
def alikeMinus : Interp := model [(c!"ex", 4294967291)]
def alikeSix : Interp := model [([], 6)]

end Ex

/-- Bit strings are compared in order as signed numbers by the solver, and as unsigned ones by the interpreter: an entry that the
solver returns for a table violates the constraint of the table. -/
theorem C105_fails_ordered : ∃ z sys p ci d ti s entry s' msg, z.Sound ∧ p4ToConstraintInfo sys p = .ok ci ∧ d ∈ p.tables ∧
    lookup d.preamble.id ci.tables = some ti ∧ Solver.create z ti (fun _ => .ok false) = .ok s ∧
    s.concretize z = (.ok entry, s') ∧ reasonEntryViolatesConstraint entry ci = .ok msg ∧ msg ≠ [] :=
  ⟨constOracle Ex.alikeTop, Ex.sys, Ex.symInfo Ex.alikeBelow, Ex.symCi Ex.alikeBelow, Ex.alikeBelow, Ex.symTi Ex.alikeBelow,
    Ex.alikeSolver Ex.alikeTop Ex.alikeBelow, Ex.alikeEntry Ex.alikeTop (Ex.alikeSolver Ex.alikeTop Ex.alikeBelow), _,
    Ex.get [] (reasonEntryViolatesConstraint (Ex.alikeEntry Ex.alikeTop (Ex.alikeSolver Ex.alikeTop Ex.alikeBelow))
      (Ex.symCi Ex.alikeBelow)), constOracle_sound _, Ex.get_of_isOk (by decide +kernel), List.mem_singleton.2 rfl, by decide +kernel,
    Ex.get_of_isOk (by decide +kernel), Prod.ext (Ex.get_of_isOk (by decide +kernel)) rfl, Ex.get_of_isOk (by decide +kernel),
    by decide +kernel⟩

/-- Bit strings are negated modulo a power of two by the solver, and as integers by the interpreter. -/
theorem C105_fails_negated : ∃ z sys p ci d ti s i op l r, z.Sound ∧ p4ToConstraintInfo sys p = .ok ci ∧ d ∈ p.tables ∧
    lookup d.preamble.id ci.tables = some ti ∧ Solver.create z ti (fun _ => .ok false) = .ok s ∧
    ∃ s1 entry s2 ci' msg, s.addConstraint z (.bin i op (.arithNeg l r) (Ex.alikeBits c!"5")) {} = (.ok true, s1) ∧
      s1.concretize z = (.ok entry, s2) ∧
      lookup entry.tableId ci'.tables = some { ti with constraint := some (.bin i op (.arithNeg l r) (Ex.alikeBits c!"5")) } ∧
      reasonEntryViolatesConstraint entry ci' = .ok msg ∧ msg ≠ [] := by
  refine ⟨constOracle Ex.alikeMinus, Ex.sys, Ex.symInfo Ex.alikeFree, Ex.symCi Ex.alikeFree, Ex.alikeFree, Ex.symTi Ex.alikeFree,
    Ex.alikeSolver Ex.alikeMinus Ex.alikeFree, _, _, _, _, constOracle_sound _, Ex.get_of_isOk (by decide +kernel),
    List.mem_singleton.2 rfl, by decide +kernel, Ex.get_of_isOk (by decide +kernel),
    ((Ex.alikeSolver Ex.alikeMinus Ex.alikeFree).addConstraint (constOracle Ex.alikeMinus) Ex.alikeNeg {}).2,
    Ex.alikeEntry Ex.alikeMinus ((Ex.alikeSolver Ex.alikeMinus Ex.alikeFree).addConstraint (constOracle Ex.alikeMinus) Ex.alikeNeg {}).2,
    _, Ex.alikeCi Ex.alikeFree Ex.alikeNeg, Ex.get [] (reasonEntryViolatesConstraint (Ex.alikeEntry Ex.alikeMinus
      ((Ex.alikeSolver Ex.alikeMinus Ex.alikeFree).addConstraint (constOracle Ex.alikeMinus) Ex.alikeNeg {}).2)
      (Ex.alikeCi Ex.alikeFree Ex.alikeNeg)), Prod.ext (show ((Ex.alikeSolver Ex.alikeMinus Ex.alikeFree).addConstraint
        (constOracle Ex.alikeMinus) Ex.alikeNeg {}).1 = .ok true by decide +kernel) rfl,
    Prod.ext (Ex.get_of_isOk (by decide +kernel)) rfl, by decide +kernel, Ex.get_of_isOk (by decide +kernel), by decide +kernel⟩

/-- The field of an expression that is not a key is that of the key with the empty name for the solver. -/
theorem C105_fails_field : ∃ z sys p ci d ti s i op j l f r, z.Sound ∧ p4ToConstraintInfo sys p = .ok ci ∧ d ∈ p.tables ∧
    lookup d.preamble.id ci.tables = some ti ∧ Solver.create z ti (fun _ => .ok false) = .ok s ∧ (∀ k n, l ≠ .key k n) ∧
    ∃ s1 entry s2 ci' msg, s.addConstraint z (.bin i op (.field j l f) r) {} = (.ok true, s1) ∧
      s1.concretize z = (.ok entry, s2) ∧
      lookup entry.tableId ci'.tables = some { ti with constraint := some (.bin i op (.field j l f) r) } ∧
      reasonEntryViolatesConstraint entry ci' = .ok msg ∧ msg ≠ [] := by
  refine ⟨constOracle Ex.alikeSix, Ex.sys, Ex.symInfo Ex.alikeUnnamed, Ex.symCi Ex.alikeUnnamed, Ex.alikeUnnamed,
    Ex.symTi Ex.alikeUnnamed, Ex.alikeSolver Ex.alikeSix Ex.alikeUnnamed, _, _, _,
    .typeCast (Ex.alikeAt (.exact 32)) (Ex.alikeBits c!"5"), _, _, constOracle_sound _,
    Ex.get_of_isOk (by decide +kernel), List.mem_singleton.2 rfl, by decide +kernel, Ex.get_of_isOk (by decide +kernel),
    (fun _ _ h => by cases h),
    ((Ex.alikeSolver Ex.alikeSix Ex.alikeUnnamed).addConstraint (constOracle Ex.alikeSix) Ex.alikeField {}).2,
    Ex.alikeEntry Ex.alikeSix ((Ex.alikeSolver Ex.alikeSix Ex.alikeUnnamed).addConstraint (constOracle Ex.alikeSix) Ex.alikeField {}).2,
    _, Ex.alikeCi Ex.alikeUnnamed Ex.alikeField, Ex.get [] (reasonEntryViolatesConstraint (Ex.alikeEntry Ex.alikeSix
      ((Ex.alikeSolver Ex.alikeSix Ex.alikeUnnamed).addConstraint (constOracle Ex.alikeSix) Ex.alikeField {}).2)
      (Ex.alikeCi Ex.alikeUnnamed Ex.alikeField)), Prod.ext (show ((Ex.alikeSolver Ex.alikeSix Ex.alikeUnnamed).addConstraint
        (constOracle Ex.alikeSix) Ex.alikeField {}).1 = .ok true by decide +kernel) rfl,
    Prod.ext (Ex.get_of_isOk (by decide +kernel)) rfl, by decide +kernel, Ex.get_of_isOk (by decide +kernel), by decide +kernel⟩

/-- The tree of `ex::value < 7`. -/
def Ex.alikeSmall : Expr := .bin (alikeAt .boolean) .lt
  (.field (alikeAt (.fixedUnsigned 32)) (.key (alikeAt (.exact 32)) c!"ex") c!"value") (alikeBits c!"7")

theorem Ex.alike_ci : p4ToConstraintInfo Ex.sys (Ex.symInfo Ex.alikeFree) = .ok (Ex.symCi Ex.alikeFree) :=
  Ex.get_of_isOk (by decide +kernel)

theorem Ex.alike_ti : lookup Ex.alikeFree.preamble.id (Ex.symCi Ex.alikeFree).tables = some (Ex.symTi Ex.alikeFree) := by
  decide +kernel

theorem Ex.alikeFive_alike (K : Str → Form → Prop) (A : Str → Prop) (ctx : EvalCtx) : Everywhere (ReadAlike K A ctx) Ex.alikeFive := by
  refine ⟨?_, trivial, trivial, trivial, 5, rfl⟩
  rintro (h | h | h | h) <;> cases h

/-- The entries that solvers for the table of the example return satisfy the tree of `ex == 5`, if it was accepted. -/
example {z : Z3Oracle} (hz : z.Sound) {s s' : Solver} {cs : List Expr}
    (hr : Reachable z Ex.sys (Ex.symTi Ex.alikeFree) (fun _ => .ok false) s cs) (hm : Ex.alikeFive ∈ cs) {entry : RtEntry}
    (hc : s.concretize z = (.ok entry, s')) {msg : Str}
    (hv : reasonEntryViolatesConstraint entry (Ex.alikeCi Ex.alikeFree Ex.alikeFive) = .ok msg) (ht : entry.tableId = 1) : msg = [] :=
  C105_returned_partial Ex.alike_ci (List.mem_singleton.2 rfl) Ex.alike_ti (skip := fun _ => false) hz hr hc hm
    (fun ctx _ => Ex.alikeFive_alike _ _ ctx) (by rw [ht]; rfl) hv

/-- Such a solver and such an entry. -/
example : ∃ s s', Solver.create (constOracle Ex.m1) (Ex.symTi Ex.alikeFree) (fun _ => .ok false) = .ok s ∧
    s.addConstraint (constOracle Ex.m1) Ex.alikeFive {} = (.ok true, s') ∧ (s'.concretize (constOracle Ex.m1)).1 = .ok Ex.e1 ∧
    reasonEntryViolatesConstraint Ex.e1 (Ex.alikeCi Ex.alikeFree Ex.alikeFive) = .ok [] :=
  ⟨Ex.alikeSolver Ex.m1 Ex.alikeFree, _, Ex.get_of_isOk (by decide +kernel),
    Prod.ext (show ((Ex.alikeSolver Ex.m1 Ex.alikeFree).addConstraint (constOracle Ex.m1) Ex.alikeFive {}).1 = .ok true by
      decide +kernel) rfl, by decide +kernel, by decide +kernel⟩

theorem Ex.alike_distinct : NamesDistinct (Ex.symTi Ex.alikeFree) := by
  have h : (Ex.symTi Ex.alikeFree).keysByName = (Ex.symTi Ex.d1).keysByName := by decide +kernel
  have := Ex.namesDistinct1
  constructor
  · rw [h]; exact this.1
  · rw [h]; exact this.2

theorem Ex.alike_canonical : CanonicalEntry (Ex.symTi Ex.alikeFree) (fun _ => (.ok false : Res Bool) = .ok true) Ex.e1 :=
  C36_canonical (z := constOracle Ex.m1) (sys := Ex.sys) (s := Ex.alikeSolver Ex.m1 Ex.alikeFree)
    (.create (Ex.get_of_isOk (by decide +kernel))) (constOracle_sound _) (parseTableInfo_wf (declared_parse Ex.alike_ci (List.mem_singleton.2 rfl) Ex.alike_ti))
    (Prod.ext (by decide +kernel) rfl)

/-- In the entry of the example, the bit strings that are compared have clear top bits. -/
theorem Ex.alikeSmall_alike {ctx : EvalCtx} (h : parseTableEntry Ex.e1 (Ex.symTi Ex.alikeFree) = .ok ctx) :
    Everywhere (ReadAlike (DeclKey Ex.alikeFree fun _ => false) (DeclAttr Ex.alikeFree) ctx) Ex.alikeSmall := by
  refine ⟨?_, ⟨⟨_, _, rfl⟩, trivial⟩, trivial, 7, rfl⟩
  intro _ w hs x y hx hy
  have hw : w = 32 := by
    cases hs with
    | field hf hk hff =>
      rcases hf with ⟨i, hf⟩ | ⟨_, hf⟩
      case inr => exact (hf _ _ rfl).elim
      cases hf
      obtain ⟨f, hf, hn, _, hform⟩ := hk
      have : ∀ f ∈ Ex.alikeFree.matchFields, f.name = c!"ex" → f = ⟨1, c!"ex", 32, .matchType .exact⟩ := by decide +kernel
      have := this f hf hn
      subst this
      cases declForm_unique hform (.exact rfl)
      cases hff
      rfl
  have hctx : ctx = Ex.get ⟨.table ⟨[], 0, []⟩, {}⟩ (parseTableEntry Ex.e1 (Ex.symTi Ex.alikeFree)) := by rw [h]; rfl
  subst hctx
  have h5 : x = 5 := by
    have : Finds (Ex.get ⟨.table ⟨[], 0, []⟩, {}⟩ (parseTableEntry Ex.e1 (Ex.symTi Ex.alikeFree)))
        (.field (Ex.alikeAt (.fixedUnsigned 32)) (.key (Ex.alikeAt (.exact 32)) c!"ex") c!"value") (.int 5) := by
      unfold Finds; decide +kernel
    cases hx.symm.trans this; rfl
  have h7 : y = 7 := by
    have : Finds (Ex.get ⟨.table ⟨[], 0, []⟩, {}⟩ (parseTableEntry Ex.e1 (Ex.symTi Ex.alikeFree)))
        (Ex.alikeBits c!"7") (.int 7) := by
      unfold Finds; decide +kernel
    cases hy.symm.trans this; rfl
  subst hw h5 h7
  decide

/-- If the solver has an answer to `ex::value < 7`, then the answer is yes, since there is an entry where it holds. -/
example {s : Solver} (hs : Solver.create Ex.perfect (Ex.symTi Ex.alikeFree) (fun _ => .ok false) = .ok s) {b : Bool}
    (hb : (s.addConstraint Ex.perfect Ex.alikeSmall {}).1 = .ok b) : b = true := by
  have hcs : (Ex.symTi Ex.alikeFree).constraint.toList = [.boolConst (Ex.alikeAt .boolean) true] := by decide +kernel
  have hr : Reachable Ex.perfect Ex.sys (Ex.symTi Ex.alikeFree) (fun _ => .ok false) s [.boolConst (Ex.alikeAt .boolean) true] := by
    rw [← hcs]; exact .create hs
  refine C105_refused_partial Ex.alike_ci (List.mem_singleton.2 rfl) Ex.alike_ti (skip := fun _ => false) Ex.perfect_sound
    Ex.perfect_decides Ex.alike_distinct hr hb (entry := Ex.e1) Ex.alike_canonical ?_ ?_
  · intro c' hc' ctx hp
    rcases List.mem_cons.1 hc' with rfl | hc'
    · exact Ex.alikeSmall_alike hp
    · cases List.mem_singleton.1 hc'
      trivial
  · intro c' hc'
    refine ⟨Ex.alikeCi Ex.alikeFree c', rfl, ?_⟩
    rcases List.mem_cons.1 hc' with rfl | hc'
    · decide +kernel
    · cases List.mem_singleton.1 hc'
      decide +kernel

end P4C
