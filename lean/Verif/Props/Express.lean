import Verif.Proofs.Express
import Verif.Props.Packets

/-!
# C68: what can be said of entries can be written, and tells them apart
-/

namespace P4C

open Spec

section
variable {sys : Sys} {ts : List TableDecl} {as : List ActionDecl} {num : Nat → Str} (hnum : ∀ n, NumVal 10 (num n) n)
  {ci : ConstraintInfo}

include hnum

/-- C68: every well-typed boolean constraint can be attached to a table without constraint. The program is accepted then. The
accepted entries of the table are the entries accepted before that consist of the keys of the table and for which the
constraint is true; entries of other tables are accepted as before. -/
theorem C68_table {d : TableDecl} (h : p4ToConstraintInfo sys ⟨d :: ts, as⟩ = .ok ci) (hw : NonNegProgram ⟨d :: ts, as⟩)
    (hb : Bare .table d.preamble) {vs : List VarInfo} (hk : Each KeyDecl d.matchFields vs) {s : SExpr} (hs : Writable .table s)
    (ht : HasTy (keySig vs) s .boolean) :
    ∃ ci', p4ToConstraintInfo sys ⟨tableWith d (toText (print num s 0)) :: ts, as⟩ = .ok ci' ∧
      (∀ entry, entry.tableId = d.preamble.id →
        (reasonEntryViolatesConstraint entry ci' = .ok [] ↔ reasonEntryViolatesConstraint entry ci = .ok [] ∧
          EntryFits vs entry ∧ ∃ ρ, EntryMeans vs entry ρ ∧ Evaluates (keySig vs) ρ s .boolean (.bool true))) ∧
      (∀ entry m, entry.tableId = d.preamble.id → entry.action = none → reasonEntryViolatesConstraint entry ci' = .ok m →
        m ≠ [] → EntryFits vs entry ∧ ∃ ρ, EntryMeans vs entry ρ ∧ Evaluates (keySig vs) ρ s .boolean (.bool false)) ∧
      ∀ entry, entry.tableId ≠ d.preamble.id →
        (reasonEntryViolatesConstraint entry ci' = .ok [] ↔ reasonEntryViolatesConstraint entry ci = .ok []) :=
  table_written hnum h hb hk hs ht hw

/-- C68: the same for actions. -/
theorem C68_action {d : ActionDecl} (h : p4ToConstraintInfo sys ⟨ts, d :: as⟩ = .ok ci) (hw : NonNegProgram ⟨ts, d :: as⟩)
    (hb : Bare .action d.preamble) {vs : List VarInfo} (hk : Each ParamIs d.params vs) {s : SExpr} (hs : Writable .action s)
    (ht : HasTy (paramSig vs) s .boolean) :
    ∃ ci', p4ToConstraintInfo sys ⟨ts, actionWith d (toText (print num s 0)) :: as⟩ = .ok ci' ∧
      (∀ a, a.actionId = d.preamble.id →
        (reasonAction a ci' = .ok [] ↔ ArgsFit vs a.params ∧ ∃ ρ, ActionMeans vs a ρ ∧
          Evaluates (paramSig vs) ρ s .boolean (.bool true))) ∧
      (∀ a m, a.actionId = d.preamble.id → reasonAction a ci' = .ok m → m ≠ [] →
        ArgsFit vs a.params ∧ ∃ ρ, ActionMeans vs a ρ ∧ Evaluates (paramSig vs) ρ s .boolean (.bool false)) ∧
      ∀ a, a.actionId ≠ d.preamble.id → (reasonAction a ci' = .ok [] ↔ reasonAction a ci = .ok []) :=
  action_written hnum h hb hk hs ht hw

end

/-- C68: constraints tell apart exactly those entries that match different packets or have different priorities. (Of entries
that are accepted as long as the table has no constraint.) -/
theorem C68_distinguish {sys : Sys} {ts : List TableDecl} {as : List ActionDecl} {d : TableDecl} {ci : ConstraintInfo}
    (h : p4ToConstraintInfo sys ⟨d :: ts, as⟩ = .ok ci) (hw : NonNegProgram ⟨d :: ts, as⟩) (hb : Bare .table d.preamble)
    (hn : Nameable d) {vs : List VarInfo} (hk : Each KeyDecl d.matchFields vs) {a b : RtEntry} (ha : a.tableId = d.preamble.id)
    (hb' : b.tableId = d.preamble.id) (ga : reasonEntryViolatesConstraint a ci = .ok [])
    (gb : reasonEntryViolatesConstraint b ci = .ok []) (pa : Proper vs a) (pb : Proper vs b) :
    Indistinguishable sys d ts as a b ↔ a.priority = b.priority ∧ ∀ x, Hits vs a x ↔ Hits vs b x := by
  constructor
  · intro hi
    obtain ⟨_, h1, vs', h2, _, _, h3⟩ := indistinguishable_same h hw hb hk ha hb' ga gb hi hn pa pb
    cases each_unique (R := KeyDecl) (fun _ _ _ => keyDecl_unique) hk h2
    exact ⟨h1, h3⟩
  · rintro ⟨h1, h2⟩
    exact same_indistinguishable h hw hb ga gb ⟨⟨ha, hb'⟩, h1, vs, hk, pa, pb, h2⟩

/-- The table of the examples without constraint. -/
def Ex.bareDecl : TableDecl := { Ex.tableDecl [] with preamble := ⟨1, c!"tbl", [c!"@name(\"tbl\")"]⟩ }

def Ex.bareCi : ConstraintInfo := Ex.get ⟨[], []⟩ (p4ToConstraintInfo Ex.sys ⟨[Ex.bareDecl], [Ex.actionDecl c!"p < q"]⟩)

theorem Ex.bare_ok : p4ToConstraintInfo Ex.sys ⟨[Ex.bareDecl], [Ex.actionDecl c!"p < q"]⟩ = .ok Ex.bareCi :=
  Ex.get_of_isOk (by decide +kernel)

theorem Ex.bare_nonNeg : NonNegProgram ⟨[Ex.bareDecl], [Ex.actionDecl c!"p < q"]⟩ := by
  constructor <;> simp [Ex.bareDecl, Ex.tableDecl, Ex.actionDecl]

theorem Ex.bare_bare : Bare .table Ex.bareDecl.preamble := by
  show ∀ a ∈ [c!"@name(\"tbl\")"], ¬ restriction .table <+: a
  decide

theorem Ex.bare_keys : Each KeyDecl Ex.bareDecl.matchFields Ex.keyInfos := Ex.keyInfos_declared []

/-- The hypotheses of `C68_table`, for the constraint `ex == 5 -> ran::low > 3`, and what is written. -/
example : (∃ ci', p4ToConstraintInfo Ex.sys ⟨[tableWith Ex.bareDecl (toText (print natDec
      (.conn .implies (.cmp .eq (.key c!"ex") (.int 5)) (.cmp .gt (.field (.key c!"ran") c!"low") (.int 3))) 0))],
      [Ex.actionDecl c!"p < q"]⟩ = .ok ci') ∧
    toText (print natDec (.conn .implies (.cmp .eq (.key c!"ex") (.int 5))
      (.cmp .gt (.field (.key c!"ran") c!"low") (.int 3))) 0) = c!"ex == 5 -> ran :: low > 3 " := by
  have hi : ∀ s ∈ [c!"ex", c!"ran", c!"low"], Ident s := by
    intro s hs
    simp only [List.mem_cons, List.not_mem_nil, or_false] at hs
    rcases hs with rfl | rfl | rfl <;>
    exact ⟨⟨_, _, rfl, by simp [Letter], by simp [Letter, Digit]⟩, by decide, by decide⟩
  obtain ⟨ci', h, _⟩ := C68_table natDec_val Ex.bare_ok Ex.bare_nonNeg Ex.bare_bare Ex.bare_keys
    (s := .conn .implies (.cmp .eq (.key c!"ex") (.int 5)) (.cmp .gt (.field (.key c!"ran") c!"low") (.int 3)))
    ⟨⟨⟨rfl, by simpa [splitDots] using hi _ (by simp)⟩, by simp [Writable]⟩,
      ⟨⟨⟨rfl, by simpa [splitDots] using hi _ (by simp)⟩, hi _ (by simp)⟩, by simp [Writable]⟩⟩
    (.conn (.cmp (.key (t := .exact 32) (by decide) ⟨nofun, nofun⟩) (.int 5) (lub_iff.1 (by decide : _ = some (.exact 32))) nofun)
      (.cmp (.field (.key (t := .range 8) (by decide) ⟨nofun, nofun⟩) (.rangeLow 8)) (.int 3)
        (lub_iff.1 (by decide : _ = some (.fixedUnsigned 8))) fun _ => .bit _))
  exact ⟨⟨ci', h⟩, by decide +kernel⟩

/-- The hypotheses of `C68_distinguish`. -/
example : Indistinguishable Ex.sys Ex.bareDecl [] [Ex.actionDecl c!"p < q"] Ex.brief Ex.lengthy := by
  refine (C68_distinguish Ex.bare_ok Ex.bare_nonNeg Ex.bare_bare ?_ Ex.bare_keys rfl rfl (by decide +kernel) (by decide +kernel)
    Ex.brief_proper Ex.lengthy_proper).2 ⟨rfl, ?_⟩
  · have hi : ∀ s ∈ [c!"ex", c!"tern", c!"pre", c!"ran", c!"opt"], ∀ p ∈ splitDots s, Ident p := by
      intro s hs
      simp only [List.mem_cons, List.not_mem_nil, or_false] at hs
      rcases hs with rfl | rfl | rfl | rfl | rfl <;> simp only [splitDots, Char.reduceEq, ↓reduceIte, List.mem_singleton, forall_eq] <;>
      exact ⟨⟨_, _, rfl, by simp [Letter], by simp [Letter, Digit]⟩, by decide, by decide⟩
    intro f hf
    simp only [Ex.bareDecl, Ex.tableDecl, List.mem_cons, List.not_mem_nil, or_false] at hf
    rcases hf with rfl | rfl | rfl | rfl | rfl <;> exact hi _ (by simp)
  · obtain ⟨_, _, vs, h1, _, _, h2⟩ := Ex.same_packets []
    cases each_unique (R := KeyDecl) (fun _ _ _ => keyDecl_unique) (Ex.keyInfos_declared []) h1
    exact h2

end P4C
