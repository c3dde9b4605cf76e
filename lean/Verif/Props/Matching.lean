import Verif.Proofs.Match
import Verif.Proofs.Solver
import Verif.Props.Entries
import Verif.Props.SymbolicEx

/-
Comparison of keys and the packets they match: property C56.
-/

namespace P4C

open Spec

/-- C56: let the constraint of a table be `l == r` or `l != r`, where the operands have values `v` and `w` of types that
convert to keys of width `W`, and the values are well formed. The entry satisfies the constraint exactly if `v` and `w`
match the same packets (respectively, do not). -/
theorem C56_equality {ci : ConstraintInfo} {entry : RtEntry} {ti : TableInfo} {o : Cmp} {l r : SExpr} {ρ : Env} {W : Nat}
    {a b t : Ty} {v w : Value} (h : TableCase ci entry ti (.cmp o l r) ρ) (ha : entry.action = none)
    (hl : Means (sigOf (.table ti.keysByName)) ρ l a v) (hr : Means (sigOf (.table ti.keysByName)) ρ r b w)
    (hj : IsJoin a b t) (ht : OfWidth W t) (hv : WellFormed W a v) (hw : WellFormed W b w) :
    (o = .eq → (reasonEntryViolatesConstraint entry ci = .ok [] ↔ SameMatches W a v b w)) ∧
    (o = .ne → (reasonEntryViolatesConstraint entry ci = .ok [] ↔ ¬ SameMatches W a v b w)) := by
  have hb : t ≠ .boolean := by rintro rfl; cases ht
  obtain ⟨nl, nr⟩ : NoOrderedExact (sigOf (.table ti.keysByName)) l ∧ NoOrderedExact (sigOf (.table ti.keysByName)) r := by
    cases h.boolean with
    | cmp hl' hr' _ _ =>
      cases means_hasTy hl _ hl'
      cases means_hasTy hr _ hr'
      exact ⟨noOrdered_of_ty hl' fun e => hb (castsTo_boolean hj.1 e),
        noOrdered_of_ty hr' fun e => hb (castsTo_boolean hj.2.1 e)⟩
  constructor
  · rintro rfl
    rw [reason_noAction h.found ha, h.iff ⟨nl, nr, nofun⟩, Holds, (means_eq hl hr hj).1, ← convert_eq_iff hj ht hv hw]
    simp
  · rintro rfl
    rw [reason_noAction h.found ha, h.iff ⟨nl, nr, nofun⟩, Holds, (means_eq hl hr hj).2, ← convert_eq_iff hj ht hv hw]
    simp

/-- C56 for an equality or inequality anywhere in a constraint. -/
theorem C56_meaning {Γ : Sig} {ρ : Env} {l r : SExpr} {W : Nat} {a b t : Ty} {v w : Value}
    (hl : Means Γ ρ l a v) (hr : Means Γ ρ r b w) (hj : IsJoin a b t) (ht : OfWidth W t)
    (hv : WellFormed W a v) (hw : WellFormed W b w) :
    (Holds Γ ρ (.cmp .eq l r) ↔ SameMatches W a v b w) ∧ (Holds Γ ρ (.cmp .ne l r) ↔ ¬ SameMatches W a v b w) := by
  constructor
  · rw [Holds, (means_eq hl hr hj).1, ← convert_eq_iff hj ht hv hw]; simp
  · rw [Holds, (means_eq hl hr hj).2, ← convert_eq_iff hj ht hv hw]; simp

/-- C56: a match whose value is well formed and matches every packet may as well be omitted. -/
theorem C56_wildcard {ci : ConstraintInfo} {entry : RtEntry} {ti : TableInfo} {ms ms' : List FieldMatch}
    {m : FieldMatch} {ki : VarInfo} {v : Value} {W : Nat} (hf : lookup entry.tableId ci.tables = some ti) (hwf : TableWF ti)
    (hki : (m.fieldId, ki) ∈ ti.keysById) (hd : MatchDenotes ki.ty m.val v) (ht : OfWidth W ki.ty) (hW : 0 < W)
    (hv : WellFormed W ki.ty v) (hall : ∀ x < 2 ^ W, Matched W ki.ty v x)
    (hno : ∀ m' ∈ ms ++ ms', m'.fieldId ≠ m.fieldId) :
    reasonEntryViolatesConstraint { entry with matches_ := ms ++ m :: ms' } ci =
      reasonEntryViolatesConstraint { entry with matches_ := ms ++ ms' } ci :=
  C08_wildcard hf hwf hki hd ((wildcard_iff ht hW hv).1 hall) hno

/-- C56: a key that is omitted matches every packet. -/
theorem C56_omitted {entry : RtEntry} {ki : VarInfo} {v : Value} {W : Nat} (ht : OfWidth W ki.ty)
    (hno : ∀ m ∈ entry.matches_, m.fieldId ≠ ki.id) (hv : KeyValue entry ki v) :
    WellFormed W ki.ty v ∧ ∀ x < 2 ^ W, Matched W ki.ty v x := by
  rcases hv with ⟨m, hm, hid, _⟩ | ⟨_, hw⟩
  · exact (hno m hm hid).elim
  · exact wildcardOf_matched ht hw

/-- C56: entries produced by a solver are well formed, so that the above applies to them. -/
theorem C56_solver {z : Z3Oracle} {sys : Sys} {ti : TableInfo} {skip : Str → Res Bool}
    {s s' : Solver} {cs : List Expr} {entry : RtEntry} (h : Reachable z sys ti skip s cs) (hz : z.Sound)
    (hwf : TableWF ti) (hw : ∀ n ki, (n, ki) ∈ ti.keysByName → NonNeg ki.ty) (hc : s.concretize z = (.ok entry, s')) :
    WellFormedEntry ti entry := by
  obtain ⟨ks, as, hi⟩ := reachable_inv h
  obtain ⟨_, _, _, _, hcan, _⟩ := concretize_spec hi hz hwf hc
  exact canonicalEntry_wellFormed hcan hwf hw

/-- An entry whose ternary key has the given value and mask. -/
def Ex.ternEntry (v m : Bytes) : RtEntry := { tableId := 1, matches_ := [⟨1, .exact [1]⟩, ⟨2, .ternary v m⟩], priority := 1 }

def Ex.tcEq : Str := c!"tern == 5"

theorem Ex.caseEq (v m : Bytes)
    (h : Ex.caseOk Ex.tcEq Ex.ac1 (Ex.ternEntry v m) (.cmp .eq (.key c!"tern") (.int 5)) = true) :
    TableCase (Ex.ci Ex.tcEq Ex.ac1) (Ex.ternEntry v m) (Ex.ti Ex.tcEq) (.cmp .eq (.key c!"tern") (.int 5))
      (envOf (Ex.ctx Ex.tcEq (Ex.ternEntry v m))) := Ex.tableCase h

/-- The hypotheses of `C56_equality` for `5 &&& 255` and for `4 &&& 254`; only the first matches the same packets as 5. -/
example : (reasonEntryViolatesConstraint (Ex.ternEntry [5] [255]) (Ex.ci Ex.tcEq Ex.ac1) = .ok [] ↔
      SameMatches 8 (.ternary 8) (.ternary 5 255) .arbitraryInt (.int 5)) ∧
    (reasonEntryViolatesConstraint (Ex.ternEntry [4] [254]) (Ex.ci Ex.tcEq Ex.ac1) = .ok [] ↔
      SameMatches 8 (.ternary 8) (.ternary 4 254) .arbitraryInt (.int 5)) := by
  have hj : IsJoin (.ternary 8) .arbitraryInt (.ternary 8) := lub_iff.1 (by decide)
  constructor
  · exact (C56_equality (W := 8) (v := .ternary 5 255) (o := .eq) (Ex.caseEq [5] [255] (by decide +kernel)) rfl
      (.key (t := .ternary 8) (by decide +kernel) (by decide +kernel)) (.int 5) hj .ternary ⟨by decide, by decide, by decide, by decide⟩ trivial).1 rfl
  · exact (C56_equality (W := 8) (v := .ternary 4 254) (o := .eq) (Ex.caseEq [4] [254] (by decide +kernel)) rfl
      (.key (t := .ternary 8) (by decide +kernel) (by decide +kernel)) (.int 5) hj .ternary ⟨by decide, by decide, by decide, by decide⟩ trivial).1 rfl

/-- C56 needs well-formed values, which are assumed but not enforced (docs/language-specification.md): the ternary match
`0x0105 &&& 0xff` matches the same packets as 5, but is not equal to 5. -/
theorem C56_not_enforced : ∃ ci entry ti ρ v, TableCase ci entry ti (.cmp .eq (.key c!"tern") (.int 5)) ρ ∧
    entry.action = none ∧ Means (sigOf (.table ti.keysByName)) ρ (.key c!"tern") (.ternary 8) v ∧
    SameMatches 8 (.ternary 8) v .arbitraryInt (.int 5) ∧ ∃ msg, msg ≠ [] ∧
    reasonEntryViolatesConstraint entry ci = .ok msg := by
  refine ⟨_, Ex.ternEntry [1, 5] [255], _, _, .ternary 261 255, Ex.caseEq [1, 5] [255] (by decide +kernel), rfl,
    .key (t := .ternary 8) (by decide +kernel) (by decide +kernel), ?_, ?_⟩
  · intro x hx
    show x &&& 255 = 261 &&& 255 ↔ (x : Int) = 5
    have : x &&& 255 = x := by
      rw [show (255 : Nat) = 2 ^ 8 - 1 from rfl, Nat.and_two_pow_sub_one_eq_mod, Nat.mod_eq_of_lt hx]
    rw [this]
    show x = 5 ↔ _
    omega
  · exact ⟨Ex.get [] (reasonEntryViolatesConstraint (Ex.ternEntry [1, 5] [255]) (Ex.ci Ex.tcEq Ex.ac1)),
      by decide +kernel, Ex.get_of_isOk (by decide +kernel)⟩

/-- Giving the prefix `0/0` explicitly. -/
example : reasonEntryViolatesConstraint { Ex.entry 5 with matches_ := [] ++ ⟨3, .lpm [0] 0⟩ :: (Ex.entry 5).matches_ }
      (Ex.ci Ex.tc1 Ex.ac1) =
    reasonEntryViolatesConstraint { Ex.entry 5 with matches_ := [] ++ (Ex.entry 5).matches_ } (Ex.ci Ex.tc1 Ex.ac1) :=
  C56_wildcard (W := 16) (ti := Ex.ti Ex.tc1) (ki := ⟨3, c!"pre", .lpm 16⟩) (v := .lpm 0 0) (Ex.case1 5).found
    (Ex.case1 5).wf (by decide +kernel) (.lpm 16 [0] 0) .lpm (by decide)
    ⟨by decide, by decide, by decide, by decide, by decide⟩
    (fun x hx => by simp [Matched, Nat.div_eq_of_lt hx]) (by decide)

/-- The omitted range key. -/
example : ∀ x < 2 ^ 8, Matched 8 (.range 8) (.range 0 255) x :=
  (C56_omitted (entry := Ex.entry 5) (ki := ⟨4, c!"ran", .range 8⟩) .range (by decide) (.inr ⟨by decide, .range 8⟩)).2

/-- The entry produced by a solver. -/
example : WellFormedEntry (Ex.symTi Ex.d1) Ex.e1 :=
  C56_solver Ex.reachable1 (constOracle_sound _) (Ex.sym_of_ok Ex.d1_ok).1
    (fun n ki h => (Ex.sym_of_ok Ex.d1_ok).2.1.key n ki.ty
      (by simp [sigOf, (lookup_iff_mem (Ex.sym_of_ok Ex.d1_ok).1.nodupName).2 h]))
    (Prod.ext Ex.concretize1 rfl)

end P4C
