import Verif.Spec.Constant

/-
Constraints as formulas of arithmetic.
-/

namespace P4C.Spec

/-- Variables of constraints of tables that are numbers: attributes and fields of keys. -/
inductive EntryVar : SExpr → Prop where
  | attr (n : Str) : EntryVar (.attr n)
  | field (k g : Str) : EntryVar (.field (.key k) g)

/-- Variables of constraints of actions: the parameters. -/
inductive ArgVar : SExpr → Prop where
  | param (n : Str) : ArgVar (.param n)

/-- Operands that are numbers: constants and variables. -/
inductive IsNumber (vars : SExpr → Prop) : SExpr → Prop where
  | int (c : Int) : IsNumber vars (.int c)
  | var {e : SExpr} : vars e → IsNumber vars e
  | neg {e : SExpr} : IsNumber vars e → IsNumber vars (.neg e)

/-- The number `z` that an operand is, and its width, if it has one; where `at` are the numbers of variables. -/
inductive NumberIn (at_ : SExpr → Option Int → Int → Prop) : SExpr → Option Int → Int → Prop where
  | int (c : Int) : NumberIn at_ (.int c) none c
  | given {e : SExpr} {w : Option Int} {z : Int} : at_ e w z → NumberIn at_ e w z
  | neg {e : SExpr} {z : Int} : NumberIn at_ e none z → NumberIn at_ (.neg e) none (-z)

/-- A number of width `a`, compared with one of width `b`: numbers without a width take that of the other, modulo 2^W. -/
def reduced : Option Int → Option Int → Int → Int
  | none, some w, z => z % 2 ^ w.toNat
  | _, _, z => z

/-- The numbers of an entry: its priority, and the fields of its matches. -/
inductive EntryNumber (fs : List MatchField) (entry : RtEntry) : SExpr → Option Int → Int → Prop where
  | priority : EntryNumber fs entry (.attr c!"priority") none entry.priority
  | field {f : MatchField} {g : Str} {z : Int} : f ∈ fs → g ≠ c!"prefix_length" → FieldNumber f g entry z →
      EntryNumber fs entry (.field (.key f.name) g) (some f.bitwidth) z
  | prefixLength {f : MatchField} {z : Int} : f ∈ fs → FieldNumber f c!"prefix_length" entry z →
      EntryNumber fs entry (.field (.key f.name) c!"prefix_length") none z

/-- The numbers of an invocation: its arguments. -/
inductive ArgNumber (fs : List ParamDecl) (a : RtAction) : SExpr → Option Int → Int → Prop where
  | param {f : ParamDecl} {v : Bytes} : f ∈ fs → f.typeName = [] → (f.id, v) ∈ a.params →
      ArgNumber fs a (.param f.name) (some f.bitwidth) (bytesNat v)

/-- `Formula vars at_ atoms s P`: read as a formula, the constraint `s` says `P`. -/
inductive Formula (vars : SExpr → Prop) (at_ : SExpr → Option Int → Int → Prop) (atoms : SExpr → Prop → Prop) : SExpr → Prop → Prop where
  | true_ : Formula vars at_ atoms (.bool true) True
  | false_ : Formula vars at_ atoms (.bool false) False
  | not {e : SExpr} {P : Prop} : Formula vars at_ atoms e P → Formula vars at_ atoms (.not e) (¬ P)
  | and {l r : SExpr} {P Q : Prop} : Formula vars at_ atoms l P → Formula vars at_ atoms r Q →
      Formula vars at_ atoms (.conn .and l r) (P ∧ Q)
  | or {l r : SExpr} {P Q : Prop} : Formula vars at_ atoms l P → Formula vars at_ atoms r Q →
      Formula vars at_ atoms (.conn .or l r) (P ∨ Q)
  | implies {l r : SExpr} {P Q : Prop} : Formula vars at_ atoms l P → Formula vars at_ atoms r Q →
      Formula vars at_ atoms (.conn .implies l r) (P → Q)
  | iff {l r : SExpr} {P Q : Prop} : Formula vars at_ atoms l P → Formula vars at_ atoms r Q →
      Formula vars at_ atoms (.cmp .eq l r) (P ↔ Q)
  | compare (o : Cmp) {x y : SExpr} : IsNumber vars x → IsNumber vars y →
      Formula vars at_ atoms (.cmp o x y) (∃ a m b n, NumberIn at_ x a m ∧ NumberIn at_ y b n ∧ o.ofInts (reduced a b m) (reduced b a n))
  | ne {l r : SExpr} {P : Prop} : Formula vars at_ atoms (.cmp .eq l r) P → Formula vars at_ atoms (.cmp .ne l r) (¬ P)
  | atom {e : SExpr} {P : Prop} : atoms e P → Formula vars at_ atoms e P

/-- The entry matches the key `f` on the number `n` only. If the key has no bits, there is no other number than 0, and a key
that is omitted is matched on it as well. -/
def OnlyOn (f : MatchField) (entry : RtEntry) (n : Int) : Prop :=
  (∃ m ∈ entry.matches_, m.fieldId = f.id ∧ MatchesOnly f m.val n) ∨
    f.bitwidth = 0 ∧ n = 0 ∧ f.kind ≠ .matchType .exact ∧ ∀ m ∈ entry.matches_, m.fieldId ≠ f.id

/-- The entry matches the key `f` on the number `x` only, where `x` takes the width of the key if it has none. -/
def OnlyNumber (fs : List MatchField) (f : MatchField) (entry : RtEntry) (x : SExpr) : Prop :=
  ∃ a z, NumberIn (EntryNumber fs entry) x a z ∧ OnlyOn f entry (reduced a (some f.bitwidth) z)

/-- Equality of keys and numbers, and of keys. -/
inductive KeyIs (fs : List MatchField) (entry : RtEntry) : SExpr → Prop → Prop where
  | left {f : MatchField} {x : SExpr} : f ∈ fs → 0 ≤ f.bitwidth → IsNumber EntryVar x →
      KeyIs fs entry (.cmp .eq (.key f.name) x) (OnlyNumber fs f entry x)
  | right {f : MatchField} {x : SExpr} : f ∈ fs → 0 ≤ f.bitwidth → IsNumber EntryVar x →
      KeyIs fs entry (.cmp .eq x (.key f.name)) (OnlyNumber fs f entry x)
  | same {f f' : MatchField} : f ∈ fs → f' ∈ fs →
      KeyIs fs entry (.cmp .eq (.key f.name) (.key f'.name)) (∀ g z, FieldNumber f g entry z ↔ FieldNumber f' g entry z)

/-- The constraint `s` of a table with the keys `fs`, read as a formula, says `P` of the entry. -/
def EntryFormula (fs : List MatchField) (entry : RtEntry) : SExpr → Prop → Prop :=
  Formula EntryVar (EntryNumber fs entry) (KeyIs fs entry)

/-- The constraint `s` of an action with the parameters `fs`, read as a formula, says `P` of the invocation. -/
def ActionFormula (fs : List ParamDecl) (a : RtAction) : SExpr → Prop → Prop :=
  Formula ArgVar (ArgNumber fs a) fun _ _ => False

/-- The constraint of the action says `s`. -/
def ActionSays (pton : Str → Option Bytes) (d : ActionDecl) (s : SExpr) : Prop :=
  ∃ vs src e, Each ParamIs d.params vs ∧ ReadConstraint pton .action (paramSig vs) d.preamble (some (src, e, s, .boolean))

/-- The constraint orders the key itself, and not one of its fields. -/
inductive OrdersKey : SExpr → Prop where
  | left {o : Cmp} (k : Str) (x : SExpr) : o.isOrder = true → OrdersKey (.cmp o (.key k) x)
  | right {o : Cmp} (k : Str) (x : SExpr) : o.isOrder = true → OrdersKey (.cmp o x (.key k))

end P4C.Spec
