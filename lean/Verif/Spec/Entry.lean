import Verif.Spec.Repr

/-
Specification of what table entries and action invocations denote (interpreter.h:136-165, P4Runtime
specification section 9.1 on match kinds and section 8.3 on byte strings).
-/

namespace P4C.Spec

/-- The unsigned integer with the given big-endian digits in base 256. -/
def bytesNat : Bytes → Nat
  | [] => 0
  | b :: bs => b.toNat * 256 ^ bs.length + bytesNat bs

/-- `MatchDenotes t m v`: the match `m` is one for a key of type `t`, and has the value `v`. -/
inductive MatchDenotes : Ty → MatchVal → Value → Prop where
  | exact (w : Int) (v : Bytes) : MatchDenotes (.exact w) (.exact v) (.exact (bytesNat v))
  | ternary (w : Int) (v m : Bytes) :
      MatchDenotes (.ternary w) (.ternary v m) (.ternary (bytesNat v) (bytesNat m))
  | lpm (w : Int) (v : Bytes) (p : Int) : MatchDenotes (.lpm w) (.lpm v p) (.lpm (bytesNat v) p)
  | range (w : Int) (l h : Bytes) :
      MatchDenotes (.range w) (.range l h) (.range (bytesNat l) (bytesNat h))
  | optional (w : Nat) (v : Bytes) :
      MatchDenotes (.optionalMatch w) (.optional v) (.ternary (bytesNat v) (2 ^ w - 1))

/-- The value of a key of the given type that is omitted from an entry. -/
inductive WildcardOf : Ty → Value → Prop where
  | ternary (w : Int) : WildcardOf (.ternary w) (.ternary 0 0)
  | optional (w : Int) : WildcardOf (.optionalMatch w) (.ternary 0 0)
  | lpm (w : Int) : WildcardOf (.lpm w) (.lpm 0 0)
  | range (w : Nat) : WildcardOf (.range w) (.range 0 (2 ^ w - 1))

/-- A table definition whose id- and name-indexed key maps describe the same keys. -/
structure TableWF (ti : TableInfo) : Prop where
  nodupId : (ti.keysById.map Prod.fst).Nodup
  nodupName : (ti.keysByName.map Prod.fst).Nodup
  byId : ∀ id ki, (id, ki) ∈ ti.keysById → ki.id = id ∧ (ki.name, ki) ∈ ti.keysByName
  byName : ∀ n ki, (n, ki) ∈ ti.keysByName → ki.name = n ∧ (ki.id, ki) ∈ ti.keysById

/-- The entry gives the key `ki` the value `v`. -/
def KeyValue (entry : RtEntry) (ki : VarInfo) (v : Value) : Prop :=
  (∃ m ∈ entry.matches_, m.fieldId = ki.id ∧ MatchDenotes ki.ty m.val v) ∨
  ((∀ m ∈ entry.matches_, m.fieldId ≠ ki.id) ∧ WildcardOf ki.ty v)

/-- The entry is consistent with the table: every match is for a key of the table and of its kind, no key
is matched twice, and a key without match has a kind for which this is allowed. -/
structure EntryOk (ti : TableInfo) (entry : RtEntry) : Prop where
  known : ∀ m ∈ entry.matches_, ∃ ki, (m.fieldId, ki) ∈ ti.keysById ∧ ∃ v, MatchDenotes ki.ty m.val v
  once : (entry.matches_.map FieldMatch.fieldId).Nodup
  complete : ∀ id ki, (id, ki) ∈ ti.keysById →
    (∃ m ∈ entry.matches_, m.fieldId = id) ∨ ∃ v, WildcardOf ki.ty v

/-- What a table constraint says of the entry. -/
structure EntryEnv (ti : TableInfo) (entry : RtEntry) (ρ : Env) : Prop where
  key : ∀ n v, ρ.key n = some v ↔ ∃ ki, (n, ki) ∈ ti.keysByName ∧ KeyValue entry ki v
  param : ∀ n, ρ.param n = none
  priority : ρ.priority = some entry.priority

/-- An action definition whose id- and name-indexed parameter maps describe the same parameters. -/
structure ActionWF (ai : ActionInfo) : Prop where
  nodupId : (ai.paramsById.map Prod.fst).Nodup
  nodupName : (ai.paramsByName.map Prod.fst).Nodup
  byId : ∀ id pi, (id, pi) ∈ ai.paramsById → pi.id = id ∧ (pi.name, pi) ∈ ai.paramsByName
  byName : ∀ n pi, (n, pi) ∈ ai.paramsByName → pi.name = n ∧ (pi.id, pi) ∈ ai.paramsById

/-- The action invocation has only arguments for parameters of the action, and at most one for each. -/
structure ActionOk (ai : ActionInfo) (a : RtAction) : Prop where
  known : ∀ p ∈ a.params, ∃ pi, (p.1, pi) ∈ ai.paramsById
  once : (a.params.map Prod.fst).Nodup

/-- Every parameter has an argument. -/
def ActionComplete (ai : ActionInfo) (a : RtAction) : Prop :=
  ∀ id pi, (id, pi) ∈ ai.paramsById → ∃ v, (id, v) ∈ a.params

/-- What an action constraint says of the action invocation. -/
structure ActionEnv (ai : ActionInfo) (a : RtAction) (ρ : Env) : Prop where
  key : ∀ n, ρ.key n = none
  param : ∀ n z, ρ.param n = some z ↔
    ∃ pi v, (n, pi) ∈ ai.paramsByName ∧ (pi.id, v) ∈ a.params ∧ z = bytesNat v
  priority : ρ.priority = none

end P4C.Spec
