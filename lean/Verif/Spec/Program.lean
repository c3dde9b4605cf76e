import Verif.Spec.Annotation
import Verif.Spec.Grammar
import Verif.Spec.Elab
import Verif.Spec.Entry
import Verif.Spec.Order

/-
Specification of the definitions read from a P4 program (constraint_info.h:40-110), for properties C31, C32
and C46.
-/

namespace P4C.Spec

/-- The key declared by a match field. -/
inductive KeyDecl : MatchField → VarInfo → Prop where
  | exact (id : Nat) (n : Str) (w : Int) : KeyDecl ⟨id, n, w, .matchType .exact⟩ ⟨id, n, .exact w⟩
  | ternary (id : Nat) (n : Str) (w : Int) : KeyDecl ⟨id, n, w, .matchType .ternary⟩ ⟨id, n, .ternary w⟩
  | lpm (id : Nat) (n : Str) (w : Int) : KeyDecl ⟨id, n, w, .matchType .lpm⟩ ⟨id, n, .lpm w⟩
  | range (id : Nat) (n : Str) (w : Int) : KeyDecl ⟨id, n, w, .matchType .range⟩ ⟨id, n, .range w⟩
  | optional (id : Nat) (n : Str) (w : Int) : KeyDecl ⟨id, n, w, .matchType .optional⟩ ⟨id, n, .optionalMatch w⟩
  | other (id : Nat) (n : Str) (w : Int) (k : Str) : KeyDecl ⟨id, n, w, .otherMatchType k⟩ ⟨id, n, .unsupported k⟩

/-- The parameter declared by an action parameter. -/
inductive ParamIs : ParamDecl → VarInfo → Prop where
  | bits (id : Nat) (n : Str) (w : Int) : ParamIs ⟨id, n, w, []⟩ ⟨id, n, .fixedUnsigned w⟩
  | named (id : Nat) (n : Str) (w : Int) {t : Str} : t ≠ [] → ParamIs ⟨id, n, w, t⟩ ⟨id, n, .unsupported t⟩

/-- Different variables have different ids and different names. -/
def Distinct (vs : List VarInfo) : Prop := (vs.map VarInfo.id).Nodup ∧ (vs.map VarInfo.name).Nodup

/-- The maps by id and by name hold the variables `vs`. -/
structure Maps (vs : List VarInfo) (byId : List (Nat × VarInfo)) (byName : List (Str × VarInfo)) : Prop where
  nodupId : (byId.map Prod.fst).Nodup
  nodupName : (byName.map Prod.fst).Nodup
  byId : ∀ id v, (id, v) ∈ byId ↔ v ∈ vs ∧ v.id = id
  byName : ∀ n v, (n, v) ∈ byName ↔ v ∈ vs ∧ v.name = n

/-- The constraint attached to a table or action. The first restriction annotation counts, up to a NUL character;
one without content counts as none. -/
inductive Attached (k : ConstraintKind) (p : Preamble) : Option ConstraintSource → Prop where
  | absent : (∀ a ∈ p.annotations, ¬ restriction k <+: a) → Attached k p none
  | bare {pre post : List Str} {rest : Str} : p.annotations = pre ++ (restriction k ++ rest) :: post →
      (∀ a ∈ pre, ¬ restriction k <+: a) → (∀ c, rest.head? = some c → c = '\x00') → Attached k p none
  | text {pre post : List Str} {body rest f : Str} {parts : List Str} {n : Nat} :
      p.annotations = pre ++ (restriction k ++ (body ++ rest)) :: post → (∀ a ∈ pre, ¬ restriction k <+: a) →
      '\x00' ∉ body → (∀ c, rest.head? = some c → c = '\x00') → Quoted body parts → Position pre f n →
      Attached k p (some ⟨join c!"\n" parts, location k p.name f n⟩)

/-- The constraint of a table or action with the variables `Γ`, as read: none, or the source and the abstract
syntax, which is derived by the grammar from the tokens of the source and has a type. -/
inductive ReadConstraint (pton : Str → Option Bytes) (k : ConstraintKind) (Γ : Sig) (p : Preamble) :
    Option (ConstraintSource × Expr × SExpr × Ty) → Prop where
  | none : Attached k p none → ReadConstraint pton k Γ p none
  | some {src : ConstraintSource} {ts : List Token} {e : Expr} {s : SExpr} {t : Ty} : Attached k p (some src) →
      Lexed src.loc src.str ts → Constraint pton k ts e → abs e = some s → HasTy Γ s t →
      ReadConstraint pton k Γ p (some (src, e, s, t))

/-- `c` is the typed form of the constraint read, and `src` its source. -/
inductive Stored : Option (ConstraintSource × Expr × SExpr × Ty) → Option Expr → ConstraintSource → Prop where
  | none : Stored none none {}
  | some {src : ConstraintSource} {e c : Expr} {s : SExpr} {t : Ty} : strip c = strip e → WellElab c → c.ty = t →
      Stored (some (src, e, s, t)) (some c) src

/-- The variables `vs` as declarations. -/
def keySig (vs : List VarInfo) : Sig :=
  ⟨fun n => (vs.find? fun v => v.name = n).map VarInfo.ty, fun _ => none⟩

/-- The variables `vs` as declarations. -/
def paramSig (vs : List VarInfo) : Sig :=
  ⟨fun _ => none, fun n => (vs.find? fun v => v.name = n).map VarInfo.ty⟩

/-- The table is well formed. -/
def GoodTable (pton : Str → Option Bytes) (d : TableDecl) : Prop :=
  ∃ vs r, Each KeyDecl d.matchFields vs ∧ Distinct vs ∧ ReadConstraint pton .table (keySig vs) d.preamble r

/-- The action is well formed. -/
def GoodAction (pton : Str → Option Bytes) (d : ActionDecl) : Prop :=
  ∃ vs r, Each ParamIs d.params vs ∧ Distinct vs ∧ ReadConstraint pton .action (paramSig vs) d.preamble r

/-- `ti` is the definition of the table `d`. -/
def TableIs (pton : Str → Option Bytes) (d : TableDecl) (ti : TableInfo) : Prop :=
  ti.id = d.preamble.id ∧ ti.name = d.preamble.name ∧
  ∃ vs r, Each KeyDecl d.matchFields vs ∧ Distinct vs ∧ Maps vs ti.keysById ti.keysByName ∧
    ReadConstraint pton .table (keySig vs) d.preamble r ∧ Stored r ti.constraint ti.source

/-- `ai` is the definition of the action `d`. -/
def ActionIs (pton : Str → Option Bytes) (d : ActionDecl) (ai : ActionInfo) : Prop :=
  ai.id = d.preamble.id ∧ ai.name = d.preamble.name ∧
  ∃ vs r, Each ParamIs d.params vs ∧ Distinct vs ∧ Maps vs ai.paramsById ai.paramsByName ∧
    ReadConstraint pton .action (paramSig vs) d.preamble r ∧ Stored r ai.constraint ai.source

/-! ### Entries, in terms of declarations -/

/-- The entry is consistent with a table with the keys `vs`. -/
structure EntryFits (vs : List VarInfo) (entry : RtEntry) : Prop where
  known : ∀ m ∈ entry.matches_, ∃ ki ∈ vs, ki.id = m.fieldId ∧ ∃ v, MatchDenotes ki.ty m.val v
  once : (entry.matches_.map FieldMatch.fieldId).Nodup
  complete : ∀ ki ∈ vs, (∃ m ∈ entry.matches_, m.fieldId = ki.id) ∨ ∃ v, WildcardOf ki.ty v

/-- What a constraint of a table with the keys `vs` says of the entry. -/
structure EntryMeans (vs : List VarInfo) (entry : RtEntry) (ρ : Env) : Prop where
  key : ∀ n v, ρ.key n = some v ↔ ∃ ki ∈ vs, ki.name = n ∧ KeyValue entry ki v
  param : ∀ n, ρ.param n = none
  priority : ρ.priority = some entry.priority

/-- The invocation has exactly one argument for each of the parameters `vs`, and no other. -/
structure ActionFits (vs : List VarInfo) (a : RtAction) : Prop where
  known : ∀ p ∈ a.params, ∃ pi ∈ vs, pi.id = p.1
  once : (a.params.map Prod.fst).Nodup
  complete : ∀ pi ∈ vs, ∃ v, (pi.id, v) ∈ a.params

/-- What a constraint of an action with the parameters `vs` says of the invocation. -/
structure ActionMeans (vs : List VarInfo) (a : RtAction) (ρ : Env) : Prop where
  key : ∀ n, ρ.key n = none
  param : ∀ n z, ρ.param n = some z ↔ ∃ pi v, pi ∈ vs ∧ pi.name = n ∧ (pi.id, v) ∈ a.params ∧ z = bytesNat v
  priority : ρ.priority = none

end P4C.Spec
