import Verif.Proofs.Explain3
import Verif.Props.Symbolic

/-
Examples for the properties of the symbolic interpreter and the constraint solver, and programs for which some
of them fail in full generality.
-/

namespace P4C

open Spec

/-! ### Examples -/

/-- The solver for the example. -/
def Ex.solver1 : Solver :=
  Ex.get ⟨0, [], Ex.symTi Ex.d1, ⟨[], []⟩, Ex.noSkip⟩ (Solver.create (constOracle Ex.m1) (Ex.symTi Ex.d1) Ex.noSkip)

theorem Ex.reachable1 : Reachable (constOracle Ex.m1) Ex.sys (Ex.symTi Ex.d1) Ex.noSkip Ex.solver1
    [Ex.symC Ex.d1] := by
  have h : Ex.isOk (Solver.create (constOracle Ex.m1) (Ex.symTi Ex.d1) Ex.noSkip) = true := by decide +kernel
  have := Reachable.create (sys := Ex.sys) (Ex.get_of_isOk (d := ⟨0, [], Ex.symTi Ex.d1, ⟨[], []⟩, Ex.noSkip⟩) h)
  rw [(Ex.sym_of_ok Ex.d1_ok).2.2.1] at this
  exact this

theorem Ex.concretize1 : (Ex.solver1.concretize (constOracle Ex.m1)).1 = .ok Ex.e1 := by decide +kernel

theorem Ex.noOrderedBits1 : NoOrderedBits (sigOf (.table (Ex.symTi Ex.d1).keysByName)) Ex.s1 := by
  simp only [NoOrderedBits, Ex.s1, Cmp.isOrder, Bool.false_eq_true, false_implies, and_true, true_and, true_implies]
  refine ⟨⟨?_, .int 9⟩, .priority, .int 100⟩
  exact .field (a := .lpm 16) (.key (by decide +kernel) ⟨nofun, nofun⟩) (.lpmPrefix _)

theorem Ex.omittable {ti : TableInfo} : Omittable ti fun n => Ex.noSkip n = .ok true := by
  intro n ki _ h
  cases h

/-- C35, C36 and C37 apply to the example. -/
example : reasonEntryViolatesConstraint Ex.e1 (Ex.symCi Ex.d1) = .ok [] := by
  obtain ⟨hwf, hw, hc, hch, _⟩ := Ex.sym_of_ok Ex.d1_ok
  have hcon : Ex.solver1.concretize (constOracle Ex.m1) = (.ok Ex.e1, (Ex.solver1.concretize (constOracle Ex.m1)).2) :=
    Prod.ext Ex.concretize1 rfl
  obtain ⟨ρ, _, h⟩ := C35_entry_satisfies_partial Ex.reachable1 (constOracle_sound _) hwf hw Ex.omittable hcon
  exact h _ List.mem_cons_self _ hch (noOrderedBits_safe Ex.noOrderedBits1 ρ) (noOrderedBits_exact Ex.noOrderedBits1) _
    (by decide +kernel)

example : CanonicalEntry (Ex.symTi Ex.d1) (fun n => Ex.noSkip n = .ok true) Ex.e1 :=
  C36_canonical Ex.reachable1 (constOracle_sound _) (Ex.sym_of_ok Ex.d1_ok).1 (Prod.ext Ex.concretize1 rfl)

/-- Adding a constraint that the model does not satisfy leaves the state unchanged. -/
example : ∃ s', Ex.solver1.addConstraintStr (constOracle Ex.m1) Ex.sys c!"tern::mask == 3" = (.ok false, s') ∧
    SameState Ex.solver1 s' ∧ (s'.concretize (constOracle Ex.m1)).1 = .ok Ex.e1 :=
  have h : Ex.solver1.addConstraintStr (constOracle Ex.m1) Ex.sys c!"tern::mask == 3" = (.ok false,
      (Ex.solver1.addConstraintStr (constOracle Ex.m1) Ex.sys c!"tern::mask == 3").2) := Prod.ext (by decide +kernel) rfl
  ⟨_, h, C37_unchanged_text h nofun, by decide +kernel⟩

/-- Adding a constraint that the model satisfies. -/
example : (Ex.solver1.addConstraintStr (constOracle Ex.m1) Ex.sys c!"tern::mask == 0xf0; pre::value != 7").1 = .ok true := by
  decide +kernel

/-- C34 on the entry of the example. -/
example : ∃ (ρ : Env) (t : Term .bool), EnvCorr Ex.m1 (sigOf (.table (Ex.symTi Ex.d1).keysByName)) Ex.solver1.env ρ ∧
    evaluateConstraintSymbolically (Ex.symC Ex.d1) {} Ex.solver1.env = .ok ⟨.bool, t⟩ ∧ t.den Ex.m1 = true := by
  obtain ⟨hwf, hw, hc, hch, hb⟩ := Ex.sym_of_ok Ex.d1_ok
  have hm : ∀ a ∈ Ex.solver1.assertions, a.den Ex.m1 = true := by
    have : Ex.solver1.assertions.all (fun a => (a.den Ex.m1 : Bool)) = true := by decide +kernel
    exact List.all_eq_true.1 this
  obtain ⟨entry, ρ, _, _, _, _, hE⟩ := C34_model_entry Ex.reachable1 hwf Ex.omittable (by
    have : ∀ x ∈ (Ex.symTi Ex.d1).keysByName, ∀ w, x.2.ty = .lpm w → w ≤ 2147483647 := by
      have : (Ex.symTi Ex.d1).keysByName.all (fun x => match x.2.ty with | .lpm w => decide (w ≤ 2147483647) | _ => true) = true := by
        decide +kernel
      intro x hx w hw
      have := List.all_eq_true.1 this x hx
      rw [hw] at this
      exact of_decide_eq_true this
    exact fun n ki w h => this (n, ki) h w) hm
  have hx : Ex.isOk (evaluateConstraintSymbolically (Ex.symC Ex.d1) {} Ex.solver1.env) = true := by decide +kernel
  obtain ⟨ks, as, hinv⟩ := reachable_inv Ex.reachable1
  obtain ⟨z, hz⟩ : ∃ z, evaluateConstraintSymbolically (Ex.symC Ex.d1) {} Ex.solver1.env = .ok z :=
    ⟨_, Ex.get_of_isOk (d := ⟨.bool, .boolVal false⟩) hx⟩
  obtain ⟨_, hk⟩ := formula_known hch hz
  obtain ⟨t, ht, hmean⟩ := formula_means (src := {}) hE hch hb hk
  refine ⟨ρ, t, hE, ht, ?_⟩
  obtain ⟨ts, hts, h1, _⟩ := hinv.assertions
  obtain ⟨t', ht', src, he⟩ := h1 _ List.mem_cons_self
  have hmean' := formula_means (src := src) hE hch hb hk
  obtain ⟨t'', e'', hm''⟩ := hmean'
  rw [he] at e''
  cases e''
  have := (signed_unique hmean hm'').2
  simp only [Value.bool.injEq] at this
  rw [this]
  exact hm t' (by rw [hts]; exact List.mem_append_right _ ht')

/-- C38: the key `opt` is skipped. -/
def Ex.skipOpt : Str → Res Bool := fun n => .ok (n == c!"opt")

example : ∃ s, Solver.create (constOracle Ex.m1) (Ex.symTi (Ex.symDecl [])) Ex.skipOpt = .ok s ∧
    (s.concretize (constOracle Ex.m1)).1 = .ok { Ex.e1 with
      matches_ := [⟨1, .exact [5]⟩, ⟨3, .lpm [0xab, 0] 8⟩, ⟨2, .ternary [16] [240]⟩] } ∧
    (s.addConstraintStr (constOracle Ex.m1) Ex.sys c!"opt == 3").1 = .err .notFound := by
  have h : Ex.isOk (Solver.create (constOracle Ex.m1) (Ex.symTi (Ex.symDecl [])) Ex.skipOpt) = true := by decide +kernel
  exact ⟨_, Ex.get_of_isOk (d := ⟨0, [], Ex.symTi Ex.d1, ⟨[], []⟩, Ex.noSkip⟩) h, by decide +kernel, by decide +kernel⟩

/-- C38: without a constraint the table of `d1` can be used if `opt` is skipped; with it, it cannot. -/
example : Ex.isOk (Solver.create (constOracle Ex.m1) (Ex.symTi Ex.d1) Ex.skipOpt) = false := by decide +kernel

/-- C39: nine bits are printed in binary, twelve in hexadecimal. -/
example : z3ToBytes (bvToString 0x1f3#9) 9 = .ok [0x01, 0xf3] ∧ z3ToBytes (bvToString 0x0f3#12) 12 = .ok [0xf3] ∧
    z3ToBytes (bvToString 0#32) 32 = .ok [0] := by decide +kernel

/-! ### Examples for completeness -/

theorem Ex.namesDistinct1 : NamesDistinct (Ex.symTi Ex.d1) := by
  have hall : (Ex.symTi Ex.d1).keysByName.all (fun x => !x.1.contains '\x00' &&
      (Ex.symTi Ex.d1).keysByName.all fun y => y.1 != x.1 ++ c!"_mask") = true := by decide +kernel
  rw [List.all_eq_true] at hall
  constructor
  · intro n ki h
    have := hall _ h
    simp only [Bool.and_eq_true, Bool.not_eq_true', List.contains_iff_mem, ← Bool.not_eq_true] at this
    exact this.1
  · intro n ki w h _ ki' h'
    have := hall _ h
    simp only [Bool.and_eq_true, List.all_eq_true] at this
    have := this.2 _ h'
    simp at this

/-- The entry of the example satisfies the constraint, so that a perfect solver can be created for the table. -/
example : ∃ s, Solver.create Ex.perfect (Ex.symTi Ex.d1) Ex.noSkip = .ok s := by
  obtain ⟨hwf, hw, hc, hch, hb⟩ := Ex.sym_of_ok Ex.d1_ok
  have hcon : Ex.solver1.concretize (constOracle Ex.m1) = (.ok Ex.e1, (Ex.solver1.concretize (constOracle Ex.m1)).2) :=
    Prod.ext Ex.concretize1 rfl
  have hcan := C36_canonical Ex.reachable1 (constOracle_sound _) hwf hcon
  obtain ⟨ks, as, hi⟩ := reachable_inv Ex.reachable1
  obtain ⟨_, _, ρ, henv, hall⟩ := concretize_holds hi (constOracle_sound _) hwf Ex.omittable hcon
  have hs := noOrderedBits_safe Ex.noOrderedBits1 ρ
  refine C40_create_partial Ex.perfect_sound Ex.perfect_decides hwf Ex.namesDistinct1 ?_ hcan henv ?_
  · intro n ki h
    exact .inr (C38_skip_errors Ex.reachable1 hwf h |>.resolve_left nofun)
  · intro c hc'
    rw [hc] at hc'
    cases hc'
    exact ⟨_, hch, hb, C38_create hwf (Ex.get_of_isOk (d := ⟨0, [], Ex.symTi Ex.d1, ⟨[], []⟩, Ex.noSkip⟩)
      (r := Solver.create (constOracle Ex.m1) (Ex.symTi Ex.d1) Ex.noSkip) (by decide +kernel)) hc hch, hs,
      signed_means (hall _ List.mem_cons_self _ hch).2 hs⟩

/-- `k::value < 1` holds of the value 0x80 of a ternary key of eight bits if comparisons are signed, and fails otherwise. -/
example : ∃ Γ ρ s, SignedHolds Γ ρ s ∧ Fails Γ ρ s :=
  ⟨⟨fun _ => some (.ternary 8), fun _ => none⟩, ⟨fun _ => some (.ternary 0x80 0xff), fun _ => none, none⟩,
    .cmp .lt (.field (.key c!"k") c!"value") (.int 1),
    .cmp (.field (.key rfl rfl) (.ternaryValue 8) (.ternaryValue _ _)) (.int 1) ((lub_iff (t := .fixedUnsigned 8)).1 rfl) rfl,
    .cmp (.field (.key rfl rfl) (.ternaryValue 8) (.ternaryValue _ _)) (.int 1) ((lub_iff (t := .fixedUnsigned 8)).1 rfl) rfl⟩

/-! ### Failures -/

/-- A constraint that compares bit strings. -/
def Ex.d2 : TableDecl := Ex.symDecl c!"tern::value < 5"

def Ex.s2' : SExpr := .cmp .lt (.field (.key c!"tern") c!"value") (.int 5)

theorem Ex.d2_ok : Ex.symOk Ex.d2 Ex.s2' = true := by decide +kernel

/-- In this model `tern` is 255, which is less than 5 as a signed number. -/
def Ex.m2 : Interp := Ex.model [(c!"tern", 255), (c!"tern_mask", 255)]

def Ex.solver2 : Solver :=
  Ex.get ⟨0, [], Ex.symTi Ex.d2, ⟨[], []⟩, Ex.noSkip⟩ (Solver.create (constOracle Ex.m2) (Ex.symTi Ex.d2) Ex.noSkip)

def Ex.e2 : RtEntry :=
  { tableId := 1, priority := 1, matches_ := [⟨1, .exact [0]⟩, ⟨3, .lpm [0] 1⟩, ⟨2, .ternary [255] [255]⟩] }

theorem Ex.reachable2 : Reachable (constOracle Ex.m2) Ex.sys (Ex.symTi Ex.d2) Ex.noSkip Ex.solver2
    [Ex.symC Ex.d2] := by
  have h : Ex.isOk (Solver.create (constOracle Ex.m2) (Ex.symTi Ex.d2) Ex.noSkip) = true := by decide +kernel
  have := Reachable.create (sys := Ex.sys) (Ex.get_of_isOk (d := ⟨0, [], Ex.symTi Ex.d2, ⟨[], []⟩, Ex.noSkip⟩) h)
  rw [(Ex.sym_of_ok Ex.d2_ok).2.2.1] at this
  exact this

theorem Ex.concretize2 : (Ex.solver2.concretize (constOracle Ex.m2)).1 = .ok Ex.e2 := by decide +kernel

theorem Ex.noOrderedExact2 : NoOrderedExact (sigOf (.table (Ex.symTi Ex.d2).keysByName)) Ex.s2' := by
  refine ⟨trivial, trivial, fun _ w => ⟨fun h => ?_, fun h => ?_⟩⟩
  · cases h with
    | field _ hf => cases hf
  · cases h

/-- C35 fails as stated (1): the solver produces an entry that violates the constraint of the table, for `tern::value < 5`
and an entry with `tern` equal to 255. -/
theorem C35_fails_signed : ∃ z sys ti s s' cs entry c ci msg, z.Sound ∧ TableWF ti ∧
    WidthsOk (sigOf (.table ti.keysByName)) ∧ Reachable z sys ti Ex.noSkip s cs ∧ s.concretize z = (.ok entry, s') ∧
    ti.constraint = some c ∧ c ∈ cs ∧ (∃ se, Checked (.table ti.keysByName) c se ∧
      NoOrderedExact (sigOf (.table ti.keysByName)) se) ∧
    lookup entry.tableId ci.tables = some ti ∧ reasonEntryViolatesConstraint entry ci = .ok msg ∧ msg ≠ [] := by
  obtain ⟨hwf, hw, hc, hch, hb⟩ := Ex.sym_of_ok Ex.d2_ok
  exact ⟨constOracle Ex.m2, Ex.sys, Ex.symTi Ex.d2, Ex.solver2, _, _, Ex.e2, Ex.symC Ex.d2, Ex.symCi Ex.d2,
    Ex.get [] (reasonEntryViolatesConstraint Ex.e2 (Ex.symCi Ex.d2)), constOracle_sound _, hwf, hw, Ex.reachable2,
    Prod.ext Ex.concretize2 rfl, hc, List.mem_cons_self, ⟨_, hch, Ex.noOrderedExact2⟩, by decide +kernel,
    Ex.get_of_isOk (by decide +kernel), by decide +kernel⟩

/-- C34 fails as stated, for the same entry: the formula is true and the entry violates the constraint. -/
theorem C34_fails : ∃ ci entry ti s ρ c m env, ∃ t : Term .bool, TableCase ci entry ti s ρ ∧ entry.action = none ∧
    ti.constraint = some c ∧ EnvCorr m (sigOf (.table ti.keysByName)) env ρ ∧ Known env s ∧
    NoOrderedExact (sigOf (.table ti.keysByName)) s ∧ evaluateConstraintSymbolically c ti.source env = .ok ⟨.bool, t⟩ ∧
    t.den m = true ∧ reasonEntryViolatesConstraint entry ci ≠ .ok [] := by
  obtain ⟨hwf, hw, hc, hch, hb⟩ := Ex.sym_of_ok Ex.d2_ok
  obtain ⟨ks, as, hi⟩ := reachable_inv Ex.reachable2
  have hcon : Ex.solver2.concretize (constOracle Ex.m2) = (.ok Ex.e2, (Ex.solver2.concretize (constOracle Ex.m2)).2) :=
    Prod.ext Ex.concretize2 rfl
  obtain ⟨hok, m, ρ, ⟨hint, hm⟩, hmm, hact, henv, hcorr⟩ := concretize_env hi (constOracle_sound _) hwf Ex.omittable hcon
  obtain ⟨ts, hts, h1, _⟩ := hi.assertions
  obtain ⟨t, ht, src, heval⟩ := h1 _ List.mem_cons_self
  obtain ⟨_, hk⟩ := formula_known hch heval
  have hboolty : HasTy (sigOf (.table (Ex.symTi Ex.d2).keysByName)) Ex.s2' .boolean := by
    obtain ⟨src', e, hi, ha⟩ := hch
    have := infer_sound hi ha
    rwa [hb] at this
  have hcase : TableCase (Ex.symCi Ex.d2) Ex.e2 (Ex.symTi Ex.d2) Ex.s2' ρ :=
    ⟨by decide +kernel, hwf, hw, ⟨_, hc, hch⟩, hboolty, hok, henv⟩
  have hev : Ex.isOk (evaluateConstraintSymbolically (Ex.symC Ex.d2) (Ex.symTi Ex.d2).source Ex.solver2.env) = true := by
    decide +kernel
  have hsrc : evaluateConstraintSymbolically (Ex.symC Ex.d2) (Ex.symTi Ex.d2).source Ex.solver2.env = .ok ⟨.bool, t⟩ := by
    rw [← heval]
    rfl
  exact ⟨_, _, _, _, _, _, m, Ex.solver2.env, t, hcase, hact, hc, hcorr, hk, Ex.noOrderedExact2, hsrc,
    hmm t (by rw [hts]; exact List.mem_append_right _ ht), by decide +kernel⟩

/-- The key `ex` is skipped. -/
def Ex.skipEx : Str → Res Bool := fun n => .ok (n == c!"ex")

/-- C35 fails as stated (2): if an exact key is skipped, the entries are not entries of the table. -/
theorem C35_fails_skipped : ∃ z sys ti skip s s' cs entry c ci, z.Sound ∧ TableWF ti ∧
    WidthsOk (sigOf (.table ti.keysByName)) ∧ Reachable z sys ti skip s cs ∧ s.concretize z = (.ok entry, s') ∧
    ti.constraint = some c ∧ c ∈ cs ∧ (∃ se, Checked (.table ti.keysByName) c se ∧
      NoOrderedBits (sigOf (.table ti.keysByName)) se) ∧
    lookup entry.tableId ci.tables = some ti ∧ reasonEntryViolatesConstraint entry ci = .err .invalidArgument := by
  have hok : Ex.symOk (Ex.symDecl c!"true") (.bool true) = true := by decide +kernel
  obtain ⟨hwf, hw, hc, hch, hb⟩ := Ex.sym_of_ok hok
  have h : Ex.isOk (Solver.create (constOracle Ex.m1) (Ex.symTi (Ex.symDecl c!"true")) Ex.skipEx) = true := by
    decide +kernel
  have hr := Reachable.create (sys := Ex.sys) (Ex.get_of_isOk (d := ⟨0, [], Ex.symTi Ex.d1, ⟨[], []⟩, Ex.noSkip⟩) h)
  rw [hc] at hr
  have hco : Ex.isOk ((Ex.get ⟨0, [], Ex.symTi Ex.d1, ⟨[], []⟩, Ex.noSkip⟩ (Solver.create (constOracle Ex.m1)
    (Ex.symTi (Ex.symDecl c!"true")) Ex.skipEx)).concretize (constOracle Ex.m1)).1 = true := by decide +kernel
  exact ⟨constOracle Ex.m1, Ex.sys, _, _, _, _, _, _, _, Ex.symCi (Ex.symDecl c!"true"), constOracle_sound _, hwf, hw, hr,
    Prod.ext (Ex.get_of_isOk (d := Ex.e1) hco) rfl, hc, List.mem_cons_self, ⟨_, hch, trivial⟩, by decide +kernel,
    by decide +kernel⟩

/-- What it takes to create a solver for the table. -/
theorem Ex.create_formula {z : Z3Oracle} {ti : TableInfo} {c : Expr} {s : Solver} (hz : z.Sound)
    (hc : ti.constraint = some c) (h : Solver.create z ti Ex.noSkip = .ok s) :
    ∃ ks as, ∃ t : Term .bool, ∃ m : Interp, createKeys Ex.noSkip [] [] (ordered ti.keysByName) = .ok (ks, as) ∧
      evaluateConstraintSymbolically c ti.source (solverEnv ti ks) = .ok ⟨.bool, t⟩ ∧ t.den m = true := by
  obtain ⟨ks, as, hk, h⟩ := create_ok.1 h
  rcases h with ⟨hn, _⟩ | ⟨c', hc', h⟩
  · rw [hc] at hn
    cases hn
  · rw [hc] at hc'
    cases hc'
    obtain ⟨_, _, _, h4⟩ := addConstraint_cases h
    rcases h4 with ⟨_, t, ht, ha, n, val, hi, hsat⟩ | ⟨h, _⟩
    · exact ⟨ks, as, t, val, hk, ht, hz.sat _ _ _ _ hsat t (by rw [ha]; simp)⟩
    · exact (h rfl).elim

/-- Executable checks of canonical entries. -/
def Ex.canonBytesB : Bytes → Bool
  | [] => false
  | [_] => true
  | b :: _ => b != 0

theorem Ex.canonBytes_of {bs : Bytes} (h : Ex.canonBytesB bs = true) : CanonicalBytes bs := by
  match bs with
  | [] => cases h
  | [_] => exact ⟨nofun, fun b rest h hn => by cases h; exact (hn rfl).elim⟩
  | b :: c :: l =>
    refine ⟨nofun, fun b' rest h' hn => ?_⟩
    cases h'
    simpa [Ex.canonBytesB] using h

def Ex.canonMatchB : Ty → MatchVal → Bool
  | .exact (.ofNat w), .exact v => Ex.canonBytesB v && decide (bytesNat v < 2 ^ w)
  | .optionalMatch (.ofNat w), .optional v => Ex.canonBytesB v && decide (bytesNat v < 2 ^ w)
  | .ternary (.ofNat w), .ternary v m => Ex.canonBytesB v && Ex.canonBytesB m && decide (bytesNat m < 2 ^ w) &&
    decide (bytesNat m ≠ 0) && decide (bytesNat v &&& bytesNat m = bytesNat v)
  | _, _ => false

theorem Ex.canonMatch_of {t : Ty} {v : MatchVal} (h : Ex.canonMatchB t v = true) : CanonicalMatch t v := by
  unfold Ex.canonMatchB at h
  split at h
  · simp only [Bool.and_eq_true, decide_eq_true_eq] at h
    exact .exact (Ex.canonBytes_of h.1) h.2
  · simp only [Bool.and_eq_true, decide_eq_true_eq] at h
    exact .optional (Ex.canonBytes_of h.1) h.2
  · simp only [Bool.and_eq_true, decide_eq_true_eq] at h
    exact .ternary (Ex.canonBytes_of h.1.1.1.1) (Ex.canonBytes_of h.1.1.1.2) h.1.1.2 h.1.2 h.2
  · cases h

def Ex.isExact : Ty → Bool
  | .exact _ => true
  | _ => false

def Ex.canonB (ti : TableInfo) (e : RtEntry) : Bool :=
  decide (e.tableId = ti.id) &&
  e.matches_.all (fun m => ti.keysByName.any fun k => decide (m.fieldId = k.2.id) && Ex.canonMatchB k.2.ty m.val) &&
  decide (e.matches_.map FieldMatch.fieldId).Nodup &&
  ti.keysByName.all (fun k => !Ex.isExact k.2.ty || e.matches_.any fun m => decide (m.fieldId = k.2.id)) &&
  (if prioritized ti then decide (0 < e.priority ∧ e.priority < 2 ^ 31) else decide (e.priority = 0))

theorem Ex.canon_of {ti : TableInfo} {e : RtEntry} (h : Ex.canonB ti e = true) :
    CanonicalEntry ti (fun n => Ex.noSkip n = .ok true) e := by
  simp only [Ex.canonB, Bool.and_eq_true, decide_eq_true_eq, List.all_eq_true, List.any_eq_true] at h
  obtain ⟨⟨⟨⟨h1, h2⟩, h3⟩, h4⟩, h5⟩ := h
  refine ⟨h1, fun m hm => ?_, h3, fun n ki w hmem ht _ => ?_, ?_⟩
  · obtain ⟨⟨n, ki⟩, hk, hid, hc⟩ := h2 m hm
    exact ⟨n, ki, hk, nofun, hid, Ex.canonMatch_of hc⟩
  · have := h4 _ hmem
    rw [ht] at this
    simpa [Ex.isExact] using this
  · split at h5
    · rename_i hp
      exact .inl ⟨prioritized_iff.1 hp, by simpa using h5⟩
    · rename_i hp
      exact .inr ⟨fun h => hp (prioritized_iff.2 h), by simpa using h5⟩

def Ex.supB (ti : TableInfo) : Bool := ti.keysByName.all fun k =>
  match k.2.ty with
  | .exact w | .ternary w | .optionalMatch w | .lpm w => decide (0 < w)
  | _ => false

theorem Ex.sup_of {ti : TableInfo} (h : Ex.supB ti = true) : KeysSupported ti Ex.noSkip := by
  intro n ki hmem
  have h := List.all_eq_true.1 h _ hmem
  refine .inr ⟨rfl, ?_⟩
  dsimp only at h
  split at h
  · rename_i ht
    exact ht ▸ .exact (by simpa using h)
  · rename_i ht
    exact ht ▸ .ternary (by simpa using h)
  · rename_i ht
    exact ht ▸ .optional (by simpa using h)
  · rename_i ht
    exact ht ▸ .lpm (by simpa using h)
  · cases h

/-- A constraint on the most significant bit. -/
def Ex.d3 : TableDecl := Ex.symDecl c!"tern::value > 127"

def Ex.s3' : SExpr := .cmp .gt (.field (.key c!"tern") c!"value") (.int 127)

theorem Ex.d3_ok : Ex.symOk Ex.d3 Ex.s3' = true := by decide +kernel

def Ex.e3 : RtEntry := { tableId := 1, priority := 1, matches_ := [⟨1, .exact [7]⟩, ⟨2, .ternary [200] [255]⟩] }

/-- C40 fails as stated (1): there is a canonical entry that satisfies the constraint of the table `tern::value > 127`,
but every solver that is right finds it unsatisfiable. -/
theorem C40_fails_signed : ∃ ti ci entry c se, TableWF ti ∧ KeysSupported ti Ex.noSkip ∧ NamesDistinct ti ∧
    CanonicalEntry ti (fun n => Ex.noSkip n = .ok true) entry ∧ lookup entry.tableId ci.tables = some ti ∧
    reasonEntryViolatesConstraint entry ci = .ok [] ∧ ti.constraint = some c ∧ Checked (.table ti.keysByName) c se ∧
    Expressible ti (fun n => Ex.noSkip n = .ok true) se ∧
    ∀ z : Z3Oracle, z.Sound → ∀ s, Solver.create z ti Ex.noSkip ≠ .ok s := by
  obtain ⟨hwf, hw, hc, hch, hb⟩ := Ex.sym_of_ok Ex.d3_ok
  refine ⟨Ex.symTi Ex.d3, Ex.symCi Ex.d3, Ex.e3, _, _, hwf, Ex.sup_of (by decide +kernel), ?_,
    Ex.canon_of (by decide +kernel), by decide +kernel, by decide +kernel, hc, hch, ?_, ?_⟩
  · have : (Ex.symTi Ex.d3).keysByName = (Ex.symTi Ex.d1).keysByName := by decide +kernel
    exact ⟨by rw [this]; exact Ex.namesDistinct1.1, by rw [this]; exact Ex.namesDistinct1.2⟩
  · exact ⟨⟨⟨2, c!"tern", .ternary 8⟩, by decide +kernel, nofun⟩, trivial⟩
  · intro z hz s h
    obtain ⟨ks, as, t, m, hk, ht, hm⟩ := Ex.create_formula hz hc h
    have hk' : createKeys Ex.noSkip [] [] (ordered (Ex.symTi Ex.d3).keysByName) = .ok (ks, as) := hk
    have he : ∃ ks' as', createKeys Ex.noSkip [] [] (ordered (Ex.symTi Ex.d3).keysByName) = .ok (ks', as') ∧
        evaluateConstraintSymbolically (Ex.symC Ex.d3) (Ex.symTi Ex.d3).source (solverEnv (Ex.symTi Ex.d3) ks') =
        .ok ⟨.bool, .sgt (.const c!"tern" (.bv 8)) (.int2bv 8 (.intVal 127))⟩ := ⟨_, _, rfl, rfl⟩
    obtain ⟨ks', as', hk2, he⟩ := he
    rw [hk'] at hk2
    cases hk2
    rw [ht] at he
    cases he
    simp only [Term.den] at hm
    generalize m c!"tern" (.bv 8) = x at hm
    revert x
    decide

/-- A table in which a key is called like the mask of another one. -/
def Ex.d4 : TableDecl :=
  { preamble := ⟨1, c!"tbl", Ex.annotations c!"a_mask == 1 && a::mask == 2"⟩
    matchFields := [⟨1, c!"a", 8, .matchType .ternary⟩, ⟨2, c!"a_mask", 8, .matchType .exact⟩] }

def Ex.s4' : SExpr := .conn .and (.cmp .eq (.key c!"a_mask") (.int 1)) (.cmp .eq (.field (.key c!"a") c!"mask") (.int 2))

theorem Ex.d4_ok : Ex.symOk Ex.d4 Ex.s4' = true := by decide +kernel

def Ex.e4 : RtEntry := { tableId := 1, priority := 1, matches_ := [⟨1, .ternary [2] [2]⟩, ⟨2, .exact [1]⟩] }

/-- C40 fails as stated (2): two keys of the table share a Z3 constant. -/
theorem C40_fails_names : ∃ ti ci entry c se, TableWF ti ∧ KeysSupported ti Ex.noSkip ∧
    CanonicalEntry ti (fun n => Ex.noSkip n = .ok true) entry ∧ lookup entry.tableId ci.tables = some ti ∧
    reasonEntryViolatesConstraint entry ci = .ok [] ∧ ti.constraint = some c ∧ Checked (.table ti.keysByName) c se ∧
    Expressible ti (fun n => Ex.noSkip n = .ok true) se ∧ NoOrderedBits (sigOf (.table ti.keysByName)) se ∧
    ∀ z : Z3Oracle, z.Sound → ∀ s, Solver.create z ti Ex.noSkip ≠ .ok s := by
  obtain ⟨hwf, hw, hc, hch, hb⟩ := Ex.sym_of_ok Ex.d4_ok
  refine ⟨Ex.symTi Ex.d4, Ex.symCi Ex.d4, Ex.e4, _, _, hwf, Ex.sup_of (by decide +kernel),
    Ex.canon_of (by decide +kernel), by decide +kernel, by decide +kernel, hc, hch, ?_, ?_, ?_⟩
  · exact ⟨⟨⟨⟨2, c!"a_mask", .exact 8⟩, by decide +kernel, nofun⟩, trivial⟩,
      ⟨⟨1, c!"a", .ternary 8⟩, by decide +kernel, nofun⟩, trivial⟩
  · simp [NoOrderedBits, Ex.s4', Cmp.isOrder]
  · intro z hz s h
    obtain ⟨ks, as, t, m, hk, ht, hm⟩ := Ex.create_formula hz hc h
    have he : ∃ ks' as', createKeys Ex.noSkip [] [] (ordered (Ex.symTi Ex.d4).keysByName) = .ok (ks', as') ∧
        evaluateConstraintSymbolically (Ex.symC Ex.d4) (Ex.symTi Ex.d4).source (solverEnv (Ex.symTi Ex.d4) ks') =
        .ok ⟨.bool, .and (.eq (.const c!"a_mask" (.bv 8)) (.int2bv 8 (.intVal 1)))
          (.eq (.const c!"a_mask" (.bv 8)) (.int2bv 8 (.intVal 2)))⟩ := ⟨_, _, rfl, rfl⟩
    obtain ⟨ks', as', hk2, he⟩ := he
    rw [hk] at hk2
    cases hk2
    rw [ht] at he
    cases he
    simp only [Term.den] at hm
    generalize m c!"a_mask" (.bv 8) = x at hm
    revert x
    decide

/-- A table without priorities. -/
def Ex.d5 : TableDecl :=
  { preamble := ⟨1, c!"tbl", Ex.annotations c!"::priority == 0"⟩
    matchFields := [⟨1, c!"a", 8, .matchType .exact⟩] }

def Ex.s5' : SExpr := .cmp .eq (.attr c!"priority") (.int 0)

theorem Ex.d5_ok : Ex.symOk Ex.d5 Ex.s5' = true := by decide +kernel

def Ex.e5 : RtEntry := { tableId := 1, matches_ := [⟨1, .exact [1]⟩] }

/-- C40 fails as stated (3): a constraint on the priority of a table without priorities, which all entries satisfy. -/
theorem C40_fails_priority : ∃ ti ci entry c se, TableWF ti ∧ KeysSupported ti Ex.noSkip ∧ NamesDistinct ti ∧
    CanonicalEntry ti (fun n => Ex.noSkip n = .ok true) entry ∧ lookup entry.tableId ci.tables = some ti ∧
    reasonEntryViolatesConstraint entry ci = .ok [] ∧ ti.constraint = some c ∧ Checked (.table ti.keysByName) c se ∧
    NoOrderedBits (sigOf (.table ti.keysByName)) se ∧
    ∀ z : Z3Oracle, z.Sound → ∀ s, Solver.create z ti Ex.noSkip ≠ .ok s := by
  obtain ⟨hwf, hw, hc, hch, hb⟩ := Ex.sym_of_ok Ex.d5_ok
  have hkeys : (Ex.symTi Ex.d5).keysByName = [(c!"a", ⟨1, c!"a", .exact 8⟩)] := by decide +kernel
  refine ⟨Ex.symTi Ex.d5, Ex.symCi Ex.d5, Ex.e5, _, _, hwf, Ex.sup_of (by decide +kernel), ?_,
    Ex.canon_of (by decide +kernel), by decide +kernel, by decide +kernel, hc, hch, ?_, ?_⟩
  · constructor
    · rw [hkeys]
      intro n ki h
      simp only [List.mem_singleton, Prod.mk.injEq] at h
      rw [h.1]
      decide
    · rw [hkeys]
      intro n ki w h ht
      simp only [List.mem_singleton, Prod.mk.injEq] at h
      rw [h.2] at ht
      rcases ht with h | h <;> cases h
  · simp [NoOrderedBits, Ex.s5', Cmp.isOrder]
  · intro z hz s h
    obtain ⟨ks, as, t, m, hk, ht, hm⟩ := Ex.create_formula hz hc h
    have he : ∃ ks' as', createKeys Ex.noSkip [] [] (ordered (Ex.symTi Ex.d5).keysByName) = .ok (ks', as') ∧
        evaluateConstraintSymbolically (Ex.symC Ex.d5) (Ex.symTi Ex.d5).source (solverEnv (Ex.symTi Ex.d5) ks') =
        .err .notFound := ⟨_, _, rfl, rfl⟩
    obtain ⟨ks', as', hk2, he⟩ := he
    rw [hk] at hk2
    cases hk2
    rw [ht] at he
    cases he

/-- The solver for the table without constraint. -/
def Ex.solver0 : Solver :=
  Ex.get ⟨0, [], Ex.symTi Ex.d2, ⟨[], []⟩, Ex.noSkip⟩
    (Solver.create (constOracle Ex.m1) (Ex.symTi (Ex.symDecl [])) Ex.noSkip)

/-- The text is a constraint with the abstract syntax `se`. -/
theorem Ex.text_constraint {n text : Str} {se : SExpr}
    (h : (match parseConstraint Ex.sys .table ⟨text, { src := .tableName n }⟩ with
      | .ok e => decide (abs e = some se)
      | _ => false) = true) :
    ∃ e, Constraint Ex.sys.inetPton6 .table (tokenize ⟨text, { src := .tableName n }⟩) e ∧ abs e = some se := by
  split at h
  · rename_i e he
    exact ⟨e, parseConstraint_iff.1 he, by simpa using h⟩
  · cases h

/-- C49 fails as stated: on a table without constraint, the error for a text that is not well typed is Internal. -/
theorem C49_fails : ∃ z sys ti s s' text e se, z.Sound ∧ TableWF ti ∧ Reachable z sys ti Ex.noSkip s [] ∧ s.table = ti ∧
    Constraint sys.inetPton6 .table (tokenize ⟨text, { src := .tableName ti.name }⟩) e ∧ abs e = some se ∧
    ¬ HasTy (sigOf (.table ti.keysByName)) se .boolean ∧ CrLf text ∧
    s.addConstraintStr z sys text = (.err .internal, s') := by
  have hcr : Ex.isOk (Solver.create (constOracle Ex.m1) (Ex.symTi (Ex.symDecl [])) Ex.noSkip) = true := by
    decide +kernel
  have hr := Reachable.create (sys := Ex.sys) (Ex.get_of_isOk (d := ⟨0, [], Ex.symTi Ex.d2, ⟨[], []⟩, Ex.noSkip⟩) hcr)
  have hn : (Ex.symTi (Ex.symDecl [])).constraint = none := by decide +kernel
  have htab : Ex.solver0.table = Ex.symTi (Ex.symDecl []) := by decide +kernel
  rw [hn] at hr
  obtain ⟨e, hg, ha⟩ := Ex.text_constraint (n := (Ex.symTi (Ex.symDecl [])).name) (text := c!"tern < 3")
    (se := .cmp .lt (.key c!"tern") (.int 3)) (by decide +kernel)
  have hadd : Ex.solver0.addConstraintStr (constOracle Ex.m1) Ex.sys c!"tern < 3" =
      (.err .internal, (Ex.solver0.addConstraintStr (constOracle Ex.m1) Ex.sys c!"tern < 3").2) :=
    Prod.ext (by decide +kernel) rfl
  refine ⟨constOracle Ex.m1, Ex.sys, Ex.symTi (Ex.symDecl []), Ex.solver0, _, c!"tern < 3", e, _, constOracle_sound _,
    parseTableInfo_wf (sys := Ex.sys) (d := Ex.symDecl []) (Ex.get_of_isOk (by decide +kernel)), hr, htab, hg, ha, ?_, ?_,
    hadd⟩
  · intro hty
    obtain ⟨c', hc', _⟩ := infer_complete (src := ⟨[], {}⟩) (e := .bin {} .lt (.key {} c!"tern") (.intConst {} c!"3"))
      (by decide +kernel) hty
    have : Ex.isOk (inferAndCheck ⟨[], {}⟩ (.table (Ex.symTi (Ex.symDecl [])).keysByName)
      (.bin {} .lt (.key {} c!"tern") (.intConst {} c!"3"))) = false := by decide +kernel
    rw [hc'] at this
    cases this
  · exact crLf_of (by decide)

/-- C49 on the table of the first example: a text that is not a constraint, a text that is not well typed, and one that is
not a boolean. -/
example : (Ex.solver1.addConstraintStr (constOracle Ex.m1) Ex.sys c!"tern < ").1 = .err .invalidArgument ∧
    (Ex.solver1.addConstraintStr (constOracle Ex.m1) Ex.sys c!"tern < 3").1 = .err .invalidArgument ∧
    (Ex.solver1.addConstraintStr (constOracle Ex.m1) Ex.sys c!"tern::mask").1 = .err .invalidArgument := by decide +kernel

/-- C50: an entry is found with a perfect solver. -/
example : ∃ s entry s', Solver.create Ex.perfect (Ex.symTi (Ex.symDecl [])) Ex.noSkip = .ok s ∧
    s.concretize Ex.perfect = (.ok entry, s') := by
  have hwf : TableWF (Ex.symTi (Ex.symDecl [])) :=
    parseTableInfo_wf (sys := Ex.sys) (d := Ex.symDecl []) (Ex.get_of_isOk (by decide +kernel))
  have hn : (Ex.symTi (Ex.symDecl [])).constraint = none := by decide +kernel
  have hc : ∃ s, Solver.create Ex.perfect (Ex.symTi (Ex.symDecl [])) Ex.noSkip = .ok s := ⟨_, rfl⟩
  obtain ⟨s, hs⟩ := hc
  have hlpm : (Ex.symTi (Ex.symDecl [])).keysByName.all (fun k => match k.2.ty with
    | .lpm w => decide (w ≤ 2147483647)
    | _ => true) = true := by decide +kernel
  obtain ⟨entry, s', h⟩ := C50_concretize Ex.perfect_sound Ex.perfect_decides Ex.perfect_priority hwf
    (fun n ki w hmem ht => by
      have := List.all_eq_true.1 hlpm _ hmem
      rw [ht] at this
      simpa using this) (Reachable.create (sys := Ex.sys) hs)
  exact ⟨s, entry, s', hs, h⟩

end P4C
