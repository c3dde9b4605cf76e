import Verif.Spec.Accept

/-
Match kinds that are special cases of others: an exact match is an optional match, an optional match a ternary match with a
mask of ones, and so on.
-/

namespace P4C.Spec

/-- A key of the second kind can match whatever one of the first kind can. -/
inductive KindWidens : MatchCase → MatchCase → Prop where
  | same (k : MatchCase) : KindWidens k k
  | exactOptional : KindWidens (.matchType .exact) (.matchType .optional)
  | exactTernary : KindWidens (.matchType .exact) (.matchType .ternary)
  | optionalTernary : KindWidens (.matchType .optional) (.matchType .ternary)
  | exactLpm : KindWidens (.matchType .exact) (.matchType .lpm)
  | exactRange : KindWidens (.matchType .exact) (.matchType .range)

/-- The same match, for a key of width `w` that is of the first kind and for one of the second kind. -/
inductive MatchWidens (w : Int) : MatchCase → MatchCase → MatchVal → MatchVal → Prop where
  | same (k : MatchCase) (m : MatchVal) : MatchWidens w k k m m
  | exactOptional (v : Bytes) : MatchWidens w (.matchType .exact) (.matchType .optional) (.exact v) (.optional v)
  | exactTernary (v : Bytes) {m : Bytes} : (bytesNat m : Int) = 2 ^ w.toNat - 1 →
      MatchWidens w (.matchType .exact) (.matchType .ternary) (.exact v) (.ternary v m)
  | optionalTernary (v : Bytes) {m : Bytes} : (bytesNat m : Int) = 2 ^ w.toNat - 1 →
      MatchWidens w (.matchType .optional) (.matchType .ternary) (.optional v) (.ternary v m)
  | exactLpm (v : Bytes) : MatchWidens w (.matchType .exact) (.matchType .lpm) (.exact v) (.lpm v w)
  | exactRange (v : Bytes) : MatchWidens w (.matchType .exact) (.matchType .range) (.exact v) (.range v v)

/-- The same key, possibly of a wider kind. -/
structure KeyWidens (f f' : MatchField) : Prop where
  id : f'.id = f.id
  name : f'.name = f.name
  bitwidth : f'.bitwidth = f.bitwidth
  kind : KindWidens f.kind f'.kind

/-- The same table, with the same constraint, possibly with keys of wider kinds. -/
structure TableWidens (d d' : TableDecl) : Prop where
  preamble : d'.preamble = d.preamble
  keys : Each KeyWidens d.matchFields d'.matchFields

/-- The same program, possibly with keys of wider kinds. -/
structure ProgramWidens (p p' : P4Info) : Prop where
  tables : Each TableWidens p.tables p'.tables
  actions : p'.actions = p.actions

/-- `e'` is, for the table `d'`, what `e` is for the table `d`: it has the same matches, for keys of possibly wider kinds.
Keys of the kind `exact` have a match. -/
structure EntryWidens (d d' : TableDecl) (e e' : RtEntry) : Prop where
  tableId : e'.tableId = e.tableId
  priority : e'.priority = e.priority
  action : e'.action = e.action
  matches_ : Each (fun m m' => m'.fieldId = m.fieldId ∧ ∀ f ∈ d.matchFields, ∀ f' ∈ d'.matchFields, f.id = m.fieldId →
    f'.id = m.fieldId → MatchWidens f.bitwidth f.kind f'.kind m.val m'.val) e.matches_ e'.matches_
  present : ∀ f ∈ d.matchFields, f.kind = .matchType .exact → ∃ m ∈ e.matches_, m.fieldId = f.id

/-- `f::mask == 0 || f::mask == -1`. -/
def exactOrWildcard (f : Str) : SExpr :=
  .conn .or (.cmp .eq (.field (.key f) c!"mask") (.int 0)) (.cmp .eq (.field (.key f) c!"mask") (.neg (.int 1)))

/-- The key, ternary if it was optional. -/
def ternaryKey (f : MatchField) : MatchField :=
  match f.kind with
  | .matchType .optional => { f with kind := .matchType .ternary }
  | _ => f

/-- The program with ternary keys in place of optional ones. -/
def ternaryForOptional (p : P4Info) : P4Info :=
  { p with tables := p.tables.map fun d => { d with matchFields := d.matchFields.map ternaryKey } }

end P4C.Spec
