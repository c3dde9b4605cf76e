import Verif.Spec.Verdict

/-
Specification for the reading of entries: definitions that differ in the order of their maps only, entries
that differ in the spelling of numbers only, and the defects of entries (properties C07, C08, C09, C12).
-/

namespace P4C.Spec

/-- The same table, with its key maps in another iteration order. -/
structure TablePerm (a b : TableInfo) : Prop where
  id : a.id = b.id
  name : a.name = b.name
  constraint : a.constraint = b.constraint
  source : a.source = b.source
  keysById : a.keysById.Perm b.keysById
  keysByName : a.keysByName.Perm b.keysByName

/-- The same action, with its parameter maps in another iteration order. -/
structure ActionPerm (a b : ActionInfo) : Prop where
  id : a.id = b.id
  name : a.name = b.name
  constraint : a.constraint = b.constraint
  source : a.source = b.source
  paramsById : a.paramsById.Perm b.paramsById
  paramsByName : a.paramsByName.Perm b.paramsByName

/-- Two lists of equal length, related elementwise. -/
inductive Each {α β : Type} (R : α → β → Prop) : List α → List β → Prop where
  | nil : Each R [] []
  | cons {a : α} {b : β} {as : List α} {bs : List β} : R a b → Each R as bs → Each R (a :: as) (b :: bs)

/-- The same definitions, with every map in another iteration order. -/
structure InfoPerm (a b : ConstraintInfo) : Prop where
  tables : ∃ ts, a.tables.Perm ts ∧ Each (fun x y => x.1 = y.1 ∧ TablePerm x.2 y.2) ts b.tables
  actions : ∃ as, a.actions.Perm as ∧ Each (fun x y => x.1 = y.1 ∧ ActionPerm x.2 y.2) as b.actions

/-- The maps are maps, and describe the same keys by id and by name. -/
structure InfoWF (ci : ConstraintInfo) : Prop where
  nodupTables : (ci.tables.map Prod.fst).Nodup
  nodupActions : (ci.actions.map Prod.fst).Nodup
  tables : ∀ id ti, (id, ti) ∈ ci.tables → TableWF ti
  actions : ∀ id ai, (id, ai) ∈ ci.actions → ActionWF ai

/-- The type of a key of one of the five match kinds, with a sensible width. -/
inductive MatchKind : Ty → Prop where
  | exact (w : Nat) : MatchKind (.exact w)
  | ternary (w : Nat) : MatchKind (.ternary w)
  | lpm (w : Nat) : MatchKind (.lpm w)
  | range (w : Nat) : MatchKind (.range w)
  | optional (w : Nat) : MatchKind (.optionalMatch w)

/-- Two byte strings for the same number. -/
def SameNumber (a b : Bytes) : Prop := bytesNat a = bytesNat b

/-- Two matches that differ in the spelling of numbers only. -/
inductive SameMatch : MatchVal → MatchVal → Prop where
  | notSet : SameMatch .notSet .notSet
  | other : SameMatch .other .other
  | exact {a b : Bytes} : SameNumber a b → SameMatch (.exact a) (.exact b)
  | ternary {a b m n : Bytes} : SameNumber a b → SameNumber m n → SameMatch (.ternary a m) (.ternary b n)
  | lpm {a b : Bytes} (p : Int) : SameNumber a b → SameMatch (.lpm a p) (.lpm b p)
  | range {a b c d : Bytes} : SameNumber a b → SameNumber c d → SameMatch (.range a c) (.range b d)
  | optional {a b : Bytes} : SameNumber a b → SameMatch (.optional a) (.optional b)

/-- Two action invocations that differ in the spelling of numbers only. -/
structure SameAction (a b : RtAction) : Prop where
  id : a.actionId = b.actionId
  params : Each (fun x y => x.1 = y.1 ∧ SameNumber x.2 y.2) a.params b.params

/-- Two actions of entries that differ in the spelling of numbers only. -/
inductive SameTableAction : Option TableAction → Option TableAction → Prop where
  | none : SameTableAction none none
  | notSet : SameTableAction (some .notSet) (some .notSet)
  | member (n : Nat) : SameTableAction (some (.memberId n)) (some (.memberId n))
  | group (n : Nat) : SameTableAction (some (.groupId n)) (some (.groupId n))
  | action {a b : RtAction} : SameAction a b → SameTableAction (some (.action a)) (some (.action b))
  | set {as bs : List RtAction} : Each SameAction as bs → SameTableAction (some (.actionSet as)) (some (.actionSet bs))

/-- Two entries that differ in the spelling of numbers only. -/
structure SameEntry (a b : RtEntry) : Prop where
  table : a.tableId = b.tableId
  priority : a.priority = b.priority
  matches_ : Each (fun x y => x.fieldId = y.fieldId ∧ SameMatch x.val y.val) a.matches_ b.matches_
  action : SameTableAction a.action b.action

/-- The match is of the kind declared for the key. -/
inductive OfKind : Ty → MatchVal → Prop where
  | exact (w : Int) (v : Bytes) : OfKind (.exact w) (.exact v)
  | ternary (w : Int) (v m : Bytes) : OfKind (.ternary w) (.ternary v m)
  | lpm (w : Int) (v : Bytes) (p : Int) : OfKind (.lpm w) (.lpm v p)
  | range (w : Int) (l h : Bytes) : OfKind (.range w) (.range l h)
  | optional (w : Int) (v : Bytes) : OfKind (.optionalMatch w) (.optional v)

/-- The entry has a match for a key the table does not have. -/
def UnknownKey (ti : TableInfo) (entry : RtEntry) : Prop :=
  ∃ m ∈ entry.matches_, ∀ ki, (m.fieldId, ki) ∉ ti.keysById

/-- The entry has two matches for a key. -/
def RepeatedKey (entry : RtEntry) : Prop := ¬ (entry.matches_.map FieldMatch.fieldId).Nodup

/-- The entry has no match for some exact key. -/
def MissingKey (ti : TableInfo) (entry : RtEntry) : Prop :=
  ∃ id ki w, (id, ki) ∈ ti.keysById ∧ ki.ty = .exact w ∧ ∀ m ∈ entry.matches_, m.fieldId ≠ id

/-- The entry has a match without contents, or with contents the checker does not know. -/
def EmptyMatch (entry : RtEntry) : Prop := ∃ m ∈ entry.matches_, m.val = .notSet ∨ m.val = .other

/-- The entry has a match of one of the five kinds for a key of another. -/
def WrongKind (ti : TableInfo) (entry : RtEntry) : Prop :=
  ∃ m ∈ entry.matches_, m.val ≠ .notSet ∧ m.val ≠ .other ∧
    ∃ ki, (m.fieldId, ki) ∈ ti.keysById ∧ ¬ OfKind ki.ty m.val

end P4C.Spec
