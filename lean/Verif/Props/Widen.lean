import Verif.Proofs.Widen
import Verif.Props.Names
import Verif.Props.Accept

/-!
# C77: special kinds of matches are special cases of general ones
-/

namespace P4C

open Spec

/-- C77: two accepted programs differ only in that some keys of the second are of a more general kind. Then an entry is
accepted by the first if and only if the second accepts the same entry, stated with the more general kinds of matches.
`hw`: bitwidths are not negative. -/
theorem C77_verdict {sys : Sys} {p p' : P4Info} {ci ci' : ConstraintInfo} (h : p4ToConstraintInfo sys p = .ok ci)
    (h' : p4ToConstraintInfo sys p' = .ok ci') (hp : ProgramWidens p p') (hw : NonNegProgram p) {d d' : TableDecl}
    (hd : d ∈ p.tables) (hd' : d' ∈ p'.tables) {e e' : RtEntry} (hid : d.preamble.id = e.tableId)
    (hid' : d'.preamble.id = e.tableId) (he : EntryWidens d d' e e') :
    reasonEntryViolatesConstraint e ci = .ok [] ↔ reasonEntryViolatesConstraint e' ci' = .ok [] := by
  obtain ⟨hn, -, h1, -⟩ := p4ToConstraintInfo_succeeds.1 ⟨ci, h⟩
  obtain ⟨-, -, h2, -⟩ := p4ToConstraintInfo_succeeds.1 ⟨ci', h'⟩
  rw [C65_accepted h hw, C65_accepted h' (nonNeg_widens hp hw)]
  exact accepted_widens hp h1 h2 hn hw hd hd' hid hid' he

/-- C77: every entry that fits the keys of the table can be so stated. -/
theorem C77_exists {sys : Sys} {p p' : P4Info} {ci : ConstraintInfo} (h : p4ToConstraintInfo sys p = .ok ci)
    (hp : ProgramWidens p p') (hw : NonNegProgram p) {d : TableDecl} (hd : d ∈ p.tables) {vs : List VarInfo}
    (hv : Each KeyDecl d.matchFields vs) {e : RtEntry} (he : EntryFits vs e) :
    ∃ d' ∈ p'.tables, d'.preamble = d.preamble ∧ ∃ e', EntryWidens d d' e e' := by
  obtain ⟨-, -, h1, -⟩ := p4ToConstraintInfo_succeeds.1 ⟨ci, h⟩
  obtain ⟨ws, -, g1, g2, -⟩ := h1 d hd
  cases each_unique (R := KeyDecl) (fun _ _ _ h h' => keyDecl_unique h h') hv g1
  obtain ⟨d', h3, h4⟩ := each_mem_left hp.tables d hd
  exact ⟨d', h3, h4.preamble, entryWidens_exists h4 hv g2 (hw.1 d hd) he⟩

/-- C77: an accepted program is still accepted when all its optional keys are made ternary, and this is one of the changes
above. -/
theorem C77_ternary {sys : Sys} {p : P4Info} (h : ∃ ci, p4ToConstraintInfo sys p = .ok ci) :
    ProgramWidens p (ternaryForOptional p) ∧ ∃ ci', p4ToConstraintInfo sys (ternaryForOptional p) = .ok ci' :=
  ⟨programWidens_ternary p, p4ToConstraintInfo_ternary h⟩

/-- C77: of a ternary key, `mask == 0 || mask == -1` is true exactly if the mask has only zeros or only ones. -/
theorem C77_mask {vs : List VarInfo} (hn : Distinct vs) {k : VarInfo} (hk : k ∈ vs) {W : Nat} (ht : k.ty = .ternary W)
    {e : RtEntry} {ρ : Env} (hρ : EntryMeans vs e ρ) {x m : Int} (hv : KeyValue e k (.ternary x m)) :
    Evaluates (keySig vs) ρ (exactOrWildcard k.name) .boolean (.bool true) ↔ m = 0 ∨ m = 2 ^ W - 1 :=
  evaluates_mask (.inl ht) (keySig_of_mem hn hk) ((hρ.key _ _).2 ⟨k, hk, rfl, hv⟩)

/-- C77: of an optional key, it is always true. -/
theorem C77_optional_mask {vs : List VarInfo} (hn : Distinct vs) {k : VarInfo} (hk : k ∈ vs) {W : Nat}
    (ht : k.ty = .optionalMatch W) {e : RtEntry} (he : EntryFits vs e) {ρ : Env} (hρ : EntryMeans vs e ρ) :
    Evaluates (keySig vs) ρ (exactOrWildcard k.name) .boolean (.bool true) := by
  obtain ⟨x, m, h1, h2⟩ : ∃ x m, KeyValue e k (.ternary x m) ∧ (m = 0 ∨ m = 2 ^ W - 1) := by
    by_cases h : ∃ m ∈ e.matches_, m.fieldId = k.id
    · obtain ⟨m, h1, h2⟩ := h
      obtain ⟨k', g1, g2, v, g3⟩ := he.known m h1
      cases inj_of_nodup_map hn.1 g1 hk (g2.trans h2)
      have : ∃ x, v = .ternary x (2 ^ W - 1) := by
        rw [ht] at g3
        generalize m.val = mv at g3
        generalize ht' : Ty.optionalMatch (W : Int) = t at g3
        cases g3 <;> cases ht'
        exact ⟨_, rfl⟩
      obtain ⟨x, rfl⟩ := this
      exact ⟨x, _, .inl ⟨m, h1, h2, g3⟩, .inr rfl⟩
    · exact ⟨0, 0, .inr ⟨fun m hm e => h ⟨m, hm, e⟩, ht ▸ .optional _⟩, .inl rfl⟩
  exact (evaluates_mask (.inr ht) (keySig_of_mem hn hk) ((hρ.key _ _).2 ⟨k, hk, rfl, h1⟩)).2 h2

/-- A table with an exact and an optional key. -/
def Ex.narrow (k : MatchCase) : TableDecl :=
  { preamble := ⟨1, c!"t", [c!"@entry_restriction(\"k::mask == -1 -> (k == 7 && x != 5)\")"]⟩
    matchFields := [⟨1, c!"x", 8, .matchType .exact⟩, ⟨2, c!"k", 8, k⟩] }

def Ex.narrow1 : P4Info := ⟨[Ex.narrow (.matchType .optional)], []⟩

def Ex.narrow2 : P4Info := ⟨[Ex.narrow (.matchType .ternary)], []⟩

theorem Ex.narrow_widens : ternaryForOptional Ex.narrow1 = Ex.narrow2 := rfl

/-- C77 applies to the example. -/
theorem Ex.narrow_verdict (x v : Bytes) :
    reasonEntryViolatesConstraint ⟨1, [⟨2, .optional v⟩, ⟨1, .exact x⟩], 3, none⟩
      (Ex.get ⟨[], []⟩ (p4ToConstraintInfo Ex.sys Ex.narrow1)) = .ok [] ↔
    reasonEntryViolatesConstraint ⟨1, [⟨2, .ternary v [0, 255]⟩, ⟨1, .exact x⟩], 3, none⟩
      (Ex.get ⟨[], []⟩ (p4ToConstraintInfo Ex.sys Ex.narrow2)) = .ok [] := by
  refine C77_verdict (Ex.get_of_isOk (by decide +kernel)) (Ex.get_of_isOk (by decide +kernel))
    (Ex.narrow_widens ▸ (C77_ternary (sys := Ex.sys) ⟨Ex.get ⟨[], []⟩ (p4ToConstraintInfo Ex.sys Ex.narrow1),
      Ex.get_of_isOk (by decide +kernel)⟩).1)
    (by simp [NonNegProgram, Ex.narrow1, Ex.narrow]) (.head _) (.head _) rfl rfl ⟨rfl, rfl, rfl, ?_, ?_⟩
  · refine .cons ⟨rfl, ?_⟩ (.cons ⟨rfl, ?_⟩ .nil)
    · simp only [Ex.narrow, List.mem_cons, List.not_mem_nil, or_false, forall_eq_or_imp, forall_eq]
      simp
      exact .optionalTernary v (by decide)
    · simp only [Ex.narrow, List.mem_cons, List.not_mem_nil, or_false, forall_eq_or_imp, forall_eq]
      simp
      exact .same _ _
  · simp [Ex.narrow]

/-- Some such entries are accepted, and some are not. -/
example :
    reasonEntryViolatesConstraint ⟨1, [⟨2, .optional [7]⟩, ⟨1, .exact [6]⟩], 3, none⟩
      (Ex.get ⟨[], []⟩ (p4ToConstraintInfo Ex.sys Ex.narrow1)) = .ok [] ∧
    reasonEntryViolatesConstraint ⟨1, [⟨2, .optional [7]⟩, ⟨1, .exact [5]⟩], 3, none⟩
      (Ex.get ⟨[], []⟩ (p4ToConstraintInfo Ex.sys Ex.narrow1)) ≠ .ok [] := by
  decide +kernel

/-- The second program need not be accepted if other kinds are changed: exact matches can be ordered, ternary ones not. -/
example : Ex.isOk (p4ToConstraintInfo Ex.sys ⟨[⟨⟨1, c!"t", [c!"@entry_restriction(\"a < 5\")"]⟩,
      [⟨1, c!"a", 8, .matchType .exact⟩]⟩], []⟩) = true ∧
    Ex.isOk (p4ToConstraintInfo Ex.sys ⟨[⟨⟨1, c!"t", [c!"@entry_restriction(\"a < 5\")"]⟩,
      [⟨1, c!"a", 8, .matchType .ternary⟩]⟩], []⟩) = false := by
  decide +kernel

/-- A ternary key with a mask that is neither. -/
example : reasonEntryViolatesConstraint ⟨1, [⟨1, .ternary [4] [6]⟩], 3, none⟩
    (Ex.get ⟨[], []⟩ (p4ToConstraintInfo Ex.sys ⟨[⟨⟨1, c!"t", [c!"@entry_restriction(\"a::mask == 0 || a::mask == -1\")"]⟩,
      [⟨1, c!"a", 8, .matchType .ternary⟩]⟩], []⟩)) ≠ .ok [] := by
  decide +kernel

end P4C
