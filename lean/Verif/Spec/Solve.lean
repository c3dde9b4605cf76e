import Verif.Spec.Symbolic
import Verif.Spec.Accept

/-
What a constraint solver for a table of a program is asked and answers, in terms of the declarations of the program (C72).
-/

namespace P4C.Spec

/-- Tables with such keys have priorities. -/
def WithPriority (vs : List VarInfo) : Prop := ∃ ki ∈ vs, ∃ w, ki.ty = .ternary w ∨ ki.ty = .optionalMatch w

/-- An entry in canonical form for the keys `vs`, without those that are to be skipped. -/
structure CanonicalOver (vs : List VarInfo) (skip : Str → Bool) (entry : RtEntry) : Prop where
  keys : ∀ m ∈ entry.matches_, ∃ ki ∈ vs, skip ki.name = false ∧ m.fieldId = ki.id ∧ CanonicalMatch ki.ty m.val
  once : (entry.matches_.map FieldMatch.fieldId).Nodup
  exact : ∀ ki ∈ vs, ∀ w, ki.ty = .exact w → skip ki.name = false → ∃ m ∈ entry.matches_, m.fieldId = ki.id
  priority : (WithPriority vs ∧ 0 < entry.priority ∧ entry.priority < 2 ^ 31) ∨ (¬ WithPriority vs ∧ entry.priority = 0)

/-- An entry of the table in canonical form, without the keys that are to be skipped. -/
def CanonicalFor (d : TableDecl) (skip : Str → Bool) (entry : RtEntry) : Prop :=
  entry.tableId = d.preamble.id ∧ ∃ vs, Each KeyDecl d.matchFields vs ∧ CanonicalOver vs skip entry

/-- The text is a constraint on the keys of the table, of boolean type, and says `s`. -/
def TextSays (pton : Str → Option Bytes) (d : TableDecl) (text : Str) (s : SExpr) : Prop :=
  ∃ vs ts e, Each KeyDecl d.matchFields vs ∧ Lexed { src := .tableName d.preamble.name } text ts ∧
    Constraint pton .table ts e ∧ abs e = some s ∧ HasTy (keySig vs) s .boolean

/-- What `s` says is true of the entry. -/
def TrueOf (d : TableDecl) (entry : RtEntry) (s : SExpr) : Prop :=
  ∃ vs ρ, Each KeyDecl d.matchFields vs ∧ EntryFits vs entry ∧ EntryMeans vs entry ρ ∧
    Evaluates (keySig vs) ρ s .boolean (.bool true)

/-- The entry satisfies the constraint given as a text. -/
def TextHolds (pton : Str → Option Bytes) (d : TableDecl) (text : Str) (entry : RtEntry) : Prop :=
  ∃ s, TextSays pton d text s ∧ TrueOf d entry s

/-- The constraint of the table says `s`. -/
def TableSays (pton : Str → Option Bytes) (d : TableDecl) (s : SExpr) : Prop :=
  ∃ vs src e, Each KeyDecl d.matchFields vs ∧ ReadConstraint pton .table (keySig vs) d.preamble (some (src, e, s, .boolean))

/-- The constraint only mentions keys that are not skipped, and the priority only if there is one. -/
def Mentionable (d : TableDecl) (skip : Str → Bool) (s : SExpr) : Prop :=
  ∃ vs, Each KeyDecl d.matchFields vs ∧
    NamesIn (fun n => ∃ ki ∈ vs, ki.name = n ∧ skip n = false) (fun a => a = c!"priority" ∧ WithPriority vs) s

/-- Only integers are compared by `<`, `<=`, `>` and `>=`. -/
def PlainOrder (d : TableDecl) (s : SExpr) : Prop := ∀ vs, Each KeyDecl d.matchFields vs → NoOrderedBits (keySig vs) s

/-- All keys are skipped or of a kind that has a symbolic counterpart. -/
def AllSupported (d : TableDecl) (skip : Str → Bool) : Prop :=
  ∀ vs, Each KeyDecl d.matchFields vs → ∀ ki ∈ vs, skip ki.name = true ∨ SymSupported ki.ty

/-- Keys that are skipped may be omitted, names have no NUL and do not clash with the names `..._mask` given to masks, and
lengths of prefixes fit an int32. -/
structure Solvable (d : TableDecl) (skip : Str → Bool) : Prop where
  omittable : ∀ vs, Each KeyDecl d.matchFields vs → ∀ ki ∈ vs, skip ki.name = true → ∃ v, WildcardOf ki.ty v
  noNul : ∀ f ∈ d.matchFields, '\x00' ∉ f.name
  noMask : ∀ f ∈ d.matchFields, ∀ g ∈ d.matchFields, g.name ≠ f.name ++ c!"_mask"
  widths : ∀ f ∈ d.matchFields, f.bitwidth ≤ 2147483647

/-- An entry of the table in canonical form that the checker accepts and that satisfies the constraints given as texts. -/
structure Solution (pton : Str → Option Bytes) (p : P4Info) (d : TableDecl) (skip : Str → Bool) (texts : List Str)
    (entry : RtEntry) : Prop where
  canonical : CanonicalFor d skip entry
  accepted : Accepted pton p entry
  texts : ∀ text ∈ texts, TextHolds pton d text entry

/-- Histories of a solver: the texts that were accepted, latest first. -/
inductive SolverRun (z : Z3Oracle) (sys : Sys) (ti : TableInfo) (skip : Str → Bool) : Solver → List Str → Prop where
  | create {s : Solver} : Solver.create z ti (fun n => .ok (skip n)) = .ok s → SolverRun z sys ti skip s []
  | accepted {s s' : Solver} {texts : List Str} {text : Str} : SolverRun z sys ti skip s texts →
      s.addConstraintStr z sys text = (.ok true, s') → SolverRun z sys ti skip s' (text :: texts)
  | rejected {s s' : Solver} {texts : List Str} {text : Str} {r : Res Bool} : SolverRun z sys ti skip s texts →
      s.addConstraintStr z sys text = (r, s') → r ≠ .ok true → SolverRun z sys ti skip s' texts
  | concretize {s s' : Solver} {texts : List Str} {r : Res RtEntry} : SolverRun z sys ti skip s texts →
      s.concretize z = (r, s') → SolverRun z sys ti skip s' texts

end P4C.Spec
