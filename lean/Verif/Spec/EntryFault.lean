import Verif.Spec.Program
import Verif.Spec.Missing
import Verif.Spec.Verdict
import Verif.Spec.Explain
import Verif.Model.EntryMessage

/-
What the error message about an entry that cannot be judged should say.
-/

namespace P4C.Spec

/-! ### Ids -/

/-- The number in hexadecimal, in lower case, with at least eight digits. -/
def Hex8 (n : Nat) (s : Str) : Prop :=
  NumVal 16 s n ∧ (s.length = 8 ∨ 8 < s.length ∧ ¬ c!"0" <+: s) ∧ ∀ c ∈ s, ¬ ('A' ≤ c ∧ c ≤ 'F')

/-- The id of an object of the program. Its upper eight bits are the kind of the object; if they are not zero, the number
without them is given, too (P4Runtime specification, 6.3). -/
inductive IdText (id : Nat) : Str → Prop where
  | plain {d h : Str} : id < 2 ^ 24 → Canonical d id → Hex8 id h → IdText id (d ++ c!" (0x" ++ h ++ c!")")
  | full {l d h : Str} : 2 ^ 24 ≤ id → Canonical l (id % 2 ^ 24) → Canonical d id → Hex8 id h →
      IdText id (l ++ c!" (full ID: " ++ d ++ c!" (0x" ++ h ++ c!"))")

/-! ### Entries that do not fit the table or action -/

/-- What is wrong with a match of an entry of a table with the keys `vs`: it is for none of the keys, is empty, or is not of
the kind of the key. -/
inductive MatchFault (x : EntryTexts) (vs : List VarInfo) (m : FieldMatch) : Code → Str → Prop where
  | unknown {s : Str} : (∀ ki ∈ vs, ki.id ≠ m.fieldId) → IdText m.fieldId s →
      MatchFault x vs m .invalidArgument (c!"unknown table key with ID " ++ s)
  | empty {ki : VarInfo} : ki ∈ vs → ki.id = m.fieldId → m.val = .notSet ∨ m.val = .other →
      MatchFault x vs m .invalidArgument (c!"unsupported P4RT field match type " ++ x.matchCase m.val)
  | kind {ki : VarInfo} : ki ∈ vs → ki.id = m.fieldId → m.val ≠ .notSet → m.val ≠ .other →
      (∀ v, ¬ MatchDenotes ki.ty m.val v) →
      MatchFault x vs m .internal (x.retCheck m.val ++ c!"P4RT table entry inconsistent with P4 program")

/-- The matches are for different keys, and of their kinds. -/
def MatchesFit (vs : List VarInfo) (ms : List FieldMatch) : Prop :=
  (∀ m ∈ ms, ∃ ki ∈ vs, ki.id = m.fieldId ∧ ∃ v, MatchDenotes ki.ty m.val v) ∧ (ms.map FieldMatch.fieldId).Nodup

/-- What is wrong with the matches of an entry: the first that is faulty, or for the key of an earlier one; or else one of
the keys that must not be omitted but are. -/
inductive MatchesFault (x : EntryTexts) (vs : List VarInfo) : List FieldMatch → Code → Str → Prop where
  | bad {pre post : List FieldMatch} {m : FieldMatch} {c : Code} {text : Str} : MatchesFit vs pre → MatchFault x vs m c text →
      MatchesFault x vs (pre ++ m :: post) c text
  | twice {pre post : List FieldMatch} {m : FieldMatch} {ki : VarInfo} {v : Value} {s : Str} : MatchesFit vs pre →
      ki ∈ vs → ki.id = m.fieldId → MatchDenotes ki.ty m.val v → (∃ m' ∈ pre, m'.fieldId = m.fieldId) →
      IdText m.fieldId s →
      MatchesFault x vs (pre ++ m :: post) .invalidArgument (c!"duplicate match on key " ++ ki.name ++ c!" with ID " ++ s)
  | exact {ms : List FieldMatch} {ki : VarInfo} {w : Int} : MatchesFit vs ms → ki ∈ vs →
      (∀ m ∈ ms, m.fieldId ≠ ki.id) → ki.ty = .exact w →
      MatchesFault x vs ms .invalidArgument (c!"missing exact match key '" ++ ki.name ++ c!"'")
  | unsupported {ms : List FieldMatch} {ki : VarInfo} {k : Str} : MatchesFit vs ms → ki ∈ vs →
      (∀ m ∈ ms, m.fieldId ≠ ki.id) → ki.ty = .unsupported k →
      MatchesFault x vs ms .internal
        (c!"Key '" ++ ki.name ++ c!"' of invalid match type detected at runtime: " ++ x.type ki.ty)

/-- The arguments are for different parameters. -/
def ArgsFit (vs : List VarInfo) (ps : List (Nat × Bytes)) : Prop :=
  (∀ p ∈ ps, ∃ pi ∈ vs, pi.id = p.1) ∧ (ps.map Prod.fst).Nodup

/-- What is wrong with the arguments of an action with the parameters `vs`: the first that is for no parameter, or for the
parameter of an earlier one. -/
inductive ArgsFault (vs : List VarInfo) : List (Nat × Bytes) → Str → Prop where
  | unknown {pre post : List (Nat × Bytes)} {p : Nat × Bytes} {s : Str} : ArgsFit vs pre → (∀ pi ∈ vs, pi.id ≠ p.1) →
      IdText p.1 s → ArgsFault vs (pre ++ p :: post) (c!"unknown action param with ID " ++ s)
  | twice {pre post : List (Nat × Bytes)} {p : Nat × Bytes} {pi : VarInfo} {s : Str} : ArgsFit vs pre → pi ∈ vs →
      pi.id = p.1 → (∃ p' ∈ pre, p'.1 = p.1) → IdText p.1 s →
      ArgsFault vs (pre ++ p :: post) (c!"duplicate action param with ID " ++ s)

/-! ### Evaluation, step by step -/

/-- The connective has the same value whatever its right operand is. -/
def DecidedLeft (o : Conn) (a : Bool) : Prop := o.apply a true = o.apply a false

/-- The connective has the same value whatever its left operand is. -/
def DecidedRight (o : Conn) (b : Bool) : Prop := o.apply true b = o.apply false b

/-- `Evaluates Γ ρ e t v`: like `Means`, with two differences. The right operand of a connective need not have a value if
the left one decides, and ordered comparison of exact matches has no value (see C01). -/
inductive Evaluates (Γ : Sig) (ρ : Env) : SExpr → Ty → Value → Prop where
  | bool (b : Bool) : Evaluates Γ ρ (.bool b) .boolean (.bool b)
  | int (z : Int) : Evaluates Γ ρ (.int z) .arbitraryInt (.int z)
  | key {n : Str} {t : Ty} {v : Value} : Γ.key n = some t → ρ.key n = some v → Evaluates Γ ρ (.key n) t v
  | param {n : Str} {t : Ty} {z : Int} : Γ.param n = some t → ρ.param n = some z → Evaluates Γ ρ (.param n) t (.int z)
  | priority {p : Int} : ρ.priority = some p → Evaluates Γ ρ (.attr c!"priority") .arbitraryInt (.int p)
  | not {e : SExpr} {b : Bool} : Evaluates Γ ρ e .boolean (.bool b) → Evaluates Γ ρ (.not e) .boolean (.bool (!b))
  | neg {e : SExpr} {z : Int} : Evaluates Γ ρ e .arbitraryInt (.int z) → Evaluates Γ ρ (.neg e) .arbitraryInt (.int (-z))
  | decided {o : Conn} {l r : SExpr} {a b : Bool} : Evaluates Γ ρ l .boolean (.bool a) → DecidedLeft o a →
      Evaluates Γ ρ (.conn o l r) .boolean (.bool (o.apply a b))
  | conn {o : Conn} {l r : SExpr} {a b : Bool} : Evaluates Γ ρ l .boolean (.bool a) →
      Evaluates Γ ρ r .boolean (.bool b) → Evaluates Γ ρ (.conn o l r) .boolean (.bool (o.apply a b))
  | cmp {o : Cmp} {l r : SExpr} {a b t : Ty} {v w : Value} {c : Bool} : Evaluates Γ ρ l a v →
      Evaluates Γ ρ r b w → IsJoin a b t → (o.isOrder = true → ∀ n, t ≠ .exact n) →
      compareVals o (convert a t v) (convert b t w) = some c → Evaluates Γ ρ (.cmp o l r) .boolean (.bool c)
  | field {e : SExpr} {f : Str} {a t : Ty} {v : Value} {z : Int} : Evaluates Γ ρ e a v → FieldTy a f t →
      FieldVal v f z → Evaluates Γ ρ (.field e f) t (.int z)

/-- Comparison operators of syntax trees. -/
def cmpOf : BinOp → Option Cmp
  | .eq => some .eq
  | .ne => some .ne
  | .lt => some .lt
  | .le => some .le
  | .gt => some .gt
  | .ge => some .ge
  | _ => none

/-- Connectives of syntax trees. -/
def connOf : BinOp → Option Conn
  | .and => some .and
  | .or => some .or
  | .implies => some .implies
  | _ => none

/-- `<`, `<=`, `>` and `>=` are mentioned in the messages about their operands. -/
def within (op : BinOp) (text : Str) : Str :=
  match op with
  | .lt | .le | .gt | .ge => text ++ c!";  in ordered comparison"
  | _ => text

/-- `Stuck name Γ ρ e a b text`: the constraint `e` of the action called `name`, or of a table, has no value, because of the
part from `a` to `b`, about which there is to say `text`. It is the first such part, where operands are evaluated from left
to right, and the right operand of a connective only if the left one does not decide. -/
inductive Stuck (name : Str) (Γ : Sig) (ρ : Env) : Expr → Loc → Loc → Str → Prop where
  | param {i : Info} {n : Str} : ρ.param n = none →
      Stuck name Γ ρ (.actionParam i n) i.start i.stop (c!"unknown action parameter " ++ n ++ c!" in action " ++ name)
  | priority {i : Info} {n : Str} : ρ.priority = none →
      Stuck name Γ ρ (.attr i n) i.start i.stop c!"The constraint context does not contain a TableEntry."
  | exact {i : Info} {op : BinOp} {o : Cmp} {l r : Expr} {s u : SExpr} {t t' : Ty} {v : Value} {w : Int} :
      cmpOf op = some o → o.isOrder = true → abs l = some s → abs r = some u → Evaluates Γ ρ s t v → HasTy Γ u t' →
      IsJoin t t' (.exact w) →
      Stuck name Γ ρ (.bin i op l r) l.start l.stop (within op c!"expected expression of integral type")
  | not {i : Info} {e : Expr} {a b : Loc} {text : Str} : Stuck name Γ ρ e a b text → Stuck name Γ ρ (.boolNeg i e) a b text
  | neg {i : Info} {e : Expr} {a b : Loc} {text : Str} : Stuck name Γ ρ e a b text → Stuck name Γ ρ (.arithNeg i e) a b text
  | field {i : Info} {e : Expr} {f : Str} {a b : Loc} {text : Str} : Stuck name Γ ρ e a b text →
      Stuck name Γ ρ (.field i e f) a b text
  | left {i : Info} {op : BinOp} {l r : Expr} {a b : Loc} {text : Str} : Stuck name Γ ρ l a b text →
      Stuck name Γ ρ (.bin i op l r) a b (within op text)
  | right {i : Info} {op : BinOp} {o : Cmp} {l r : Expr} {s u : SExpr} {t t' : Ty} {v : Value} {a b : Loc} {text : Str} :
      cmpOf op = some o → abs l = some s → abs r = some u → Evaluates Γ ρ s t v → HasTy Γ u t' →
      (o.isOrder = true → ∀ w, ¬ IsJoin t t' (.exact w)) → Stuck name Γ ρ r a b text →
      Stuck name Γ ρ (.bin i op l r) a b (within op text)
  | second {i : Info} {op : BinOp} {o : Conn} {l r : Expr} {s : SExpr} {x : Bool} {a b : Loc} {text : Str} :
      connOf op = some o → abs l = some s → Evaluates Γ ρ s .boolean (.bool x) → ¬ DecidedLeft o x →
      Stuck name Γ ρ r a b text → Stuck name Γ ρ (.bin i op l r) a b text

/-- The parts of a violated constraint that are considered for the explanation: operands whose value decides. -/
inductive Considered (Γ : Sig) (ρ : Env) : Expr → Expr → Prop where
  | self (e : Expr) : Considered Γ ρ e e
  | not {i : Info} {e k : Expr} : Considered Γ ρ e k → Considered Γ ρ (.boolNeg i e) k
  | left {i : Info} {op : BinOp} {o : Conn} {l r k : Expr} {s : SExpr} {x : Bool} : connOf op = some o → abs l = some s →
      Evaluates Γ ρ s .boolean (.bool x) → DecidedLeft o x → Considered Γ ρ l k → Considered Γ ρ (.bin i op l r) k
  | right {i : Info} {op : BinOp} {o : Conn} {l r k : Expr} {s : SExpr} {x : Bool} : connOf op = some o → abs r = some s →
      Evaluates Γ ρ s .boolean (.bool x) → DecidedRight o x → Considered Γ ρ r k → Considered Γ ρ (.bin i op l r) k

/-- The constraint `e`, or a part of one, has the boolean value `b`. -/
def Valued (Γ : Sig) (ρ : Env) (e : Expr) (b : Bool) : Prop :=
  ∃ s, abs e = some s ∧ Evaluates Γ ρ s .boolean (.bool b)

/-- `Explained Γ ρ e y`: the part `y` of `e` explains the value of `e`. An operand that decides the value of a connective
explains it; if both do, the explanation is the smaller of the two, or the left one if they are equally large. For this
their sizes are needed, which are not defined if an action parameter is an operand of a comparison (see C03). A connective
that is decided by neither operand, a comparison, or a constant, is its own explanation. Both operands of connectives must
have a value, even if the value of the connective is decided by the left one. -/
inductive Explained (Γ : Sig) (ρ : Env) : Expr → Expr → Prop where
  | const (i : Info) (b : Bool) : Explained Γ ρ (.boolConst i b) (.boolConst i b)
  | cmp {i : Info} {op : BinOp} {o : Cmp} {l r : Expr} : cmpOf op = some o → Explained Γ ρ (.bin i op l r) (.bin i op l r)
  | not {i : Info} {e y : Expr} : Explained Γ ρ e y → Explained Γ ρ (.boolNeg i e) y
  | neither {i : Info} {op : BinOp} {o : Conn} {l r : Expr} {a b : Bool} : connOf op = some o → Valued Γ ρ l a →
      Valued Γ ρ r b → ¬ DecidedLeft o a → ¬ DecidedRight o b → Explained Γ ρ (.bin i op l r) (.bin i op l r)
  | left {i : Info} {op : BinOp} {o : Conn} {l r y : Expr} {a b : Bool} : connOf op = some o → Valued Γ ρ l a →
      Valued Γ ρ r b → DecidedLeft o a → ¬ DecidedRight o b → Explained Γ ρ l y → Explained Γ ρ (.bin i op l r) y
  | right {i : Info} {op : BinOp} {o : Conn} {l r y : Expr} {a b : Bool} : connOf op = some o → Valued Γ ρ l a →
      Valued Γ ρ r b → ¬ DecidedLeft o a → DecidedRight o b → Explained Γ ρ r y → Explained Γ ρ (.bin i op l r) y
  | bothLeft {i : Info} {op : BinOp} {o : Conn} {l r y z : Expr} {a b : Bool} : connOf op = some o → Valued Γ ρ l a →
      Valued Γ ρ r b → DecidedLeft o a → DecidedRight o b → Explained Γ ρ l y → Explained Γ ρ r z →
      CorrectSizes.NoBareParam y → CorrectSizes.NoBareParam z → weight y ≤ weight z → Explained Γ ρ (.bin i op l r) y
  | bothRight {i : Info} {op : BinOp} {o : Conn} {l r y z : Expr} {a b : Bool} : connOf op = some o → Valued Γ ρ l a →
      Valued Γ ρ r b → DecidedLeft o a → DecidedRight o b → Explained Γ ρ l y → Explained Γ ρ r z →
      CorrectSizes.NoBareParam y → CorrectSizes.NoBareParam z → weight z < weight y → Explained Γ ρ (.bin i op l r) z

/-- The first action parameter that is an operand of a comparison, because of which the expression has no size. -/
inductive Obstacle : Expr → Info → Str → Prop where
  | self (i : Info) (n : Str) : Obstacle (.actionParam i n) i n
  | not {i j : Info} {e : Expr} {n : Str} : Obstacle e j n → Obstacle (.boolNeg i e) j n
  | left {i j : Info} {op : BinOp} {l r : Expr} {n : Str} : Obstacle l j n → Obstacle (.bin i op l r) j n
  | right {i j : Info} {op : BinOp} {l r : Expr} {n : Str} : CorrectSizes.NoBareParam l → Obstacle r j n →
      Obstacle (.bin i op l r) j n

/-- What is to blame: the part of the source from `a` to `b`, about which there is to say `text`; or an action parameter. -/
inductive Blame where
  | place (a b : Loc) (text : Str)
  | param (i : Info) (n : Str)

/-- `Unexplained name Γ ρ e f`: the constraint `e` has a value, but there is no explanation, and `f` is to blame. The operands
of a connective are considered first; then explanations of the operands that decide, from left to right; and then the sizes
of the explanations, if both operands decide. -/
inductive Unexplained (name : Str) (Γ : Sig) (ρ : Env) : Expr → Blame → Prop where
  | not {i : Info} {e : Expr} {f : Blame} : Unexplained name Γ ρ e f → Unexplained name Γ ρ (.boolNeg i e) f
  | operand {i : Info} {op : BinOp} {o : Conn} {l r : Expr} {x : Bool} {a b : Loc} {text : Str} : connOf op = some o →
      Valued Γ ρ l x → Stuck name Γ ρ r a b text → Unexplained name Γ ρ (.bin i op l r) (.place a b text)
  | left {i : Info} {op : BinOp} {o : Conn} {l r : Expr} {a b : Bool} {f : Blame} : connOf op = some o → Valued Γ ρ l a →
      Valued Γ ρ r b → DecidedLeft o a → Unexplained name Γ ρ l f → Unexplained name Γ ρ (.bin i op l r) f
  | right {i : Info} {op : BinOp} {o : Conn} {l r : Expr} {a b : Bool} {f : Blame} : connOf op = some o → Valued Γ ρ l a →
      Valued Γ ρ r b → ¬ DecidedLeft o a → DecidedRight o b → Unexplained name Γ ρ r f → Unexplained name Γ ρ (.bin i op l r) f
  | second {i : Info} {op : BinOp} {o : Conn} {l r y : Expr} {a b : Bool} {f : Blame} : connOf op = some o → Valued Γ ρ l a →
      Valued Γ ρ r b → DecidedLeft o a → DecidedRight o b → Explained Γ ρ l y → Unexplained name Γ ρ r f →
      Unexplained name Γ ρ (.bin i op l r) f
  | sizeLeft {i j : Info} {op : BinOp} {o : Conn} {l r y z : Expr} {a b : Bool} {n : Str} {t : Ty} : connOf op = some o →
      Valued Γ ρ l a → Valued Γ ρ r b → DecidedLeft o a → DecidedRight o b → Explained Γ ρ l y → Explained Γ ρ r z →
      Obstacle y j n → Γ.param n = some t → Unexplained name Γ ρ (.bin i op l r) (.param ⟨j.start, j.stop, t⟩ n)
  | sizeRight {i j : Info} {op : BinOp} {o : Conn} {l r y z : Expr} {a b : Bool} {n : Str} {t : Ty} : connOf op = some o →
      Valued Γ ρ l a → Valued Γ ρ r b → DecidedLeft o a → DecidedRight o b → Explained Γ ρ l y → Explained Γ ρ r z →
      CorrectSizes.NoBareParam y → Obstacle z j n → Γ.param n = some t →
      Unexplained name Γ ρ (.bin i op l r) (.param ⟨j.start, j.stop, t⟩ n)

/-- Why a constraint cannot be judged of an entry or action invocation that fits the table or action. Either it has no
value; or it is violated, and there is no explanation, because an operand that was not needed for the verdict has no value,
or because of an action parameter (see C03); or the explanation is on a line the constraint has not got. -/
inductive JudgeFault (x : EntryTexts) (name : Str) (src : ConstraintSource) (Γ : Sig) (ρ : Env) (e : Expr) :
    Code → Str → Prop where
  | stuck {a b : Loc} {text m : Str} {c : Code} : Stuck name Γ ρ e a b text →
      Shown .internal c!"Runtime type error: " x.quoteFailure src a b text c m → JudgeFault x name src Γ ρ e c m
  | operand {a b : Loc} {text m : Str} {c : Code} : Valued Γ ρ e false → Unexplained name Γ ρ e (.place a b text) →
      Shown .internal c!"Runtime type error: " x.quoteFailure src a b text c m → JudgeFault x name src Γ ρ e c m
  | size {i : Info} {n : Str} : Valued Γ ρ e false → Unexplained name Γ ρ e (.param i n) →
      JudgeFault x name src Γ ρ e .invalidArgument (c!"invalid expression: " ++ x.expression (.actionParam i n))
  | violation {y : Expr} : Valued Γ ρ e false → Explained Γ ρ e y → Missing src y.start y.stop →
      JudgeFault x name src Γ ρ e .invalidArgument (x.quoteStatus src y.start y.stop)

/-! ### Entries -/

/-- The typed form of the constraint `e`. -/
def TypedForm (e : Expr) (t : Ty) (e' : Expr) : Prop := strip e' = strip e ∧ WellElab e' ∧ e'.ty = t

/-- Why the constraint of the table `d` cannot be judged of the entry. -/
inductive TableError (x : EntryTexts) (pton : Str → Option Bytes) (d : TableDecl) (entry : RtEntry) : Code → Str → Prop where
  | nonBoolean {vs : List VarInfo} {src : ConstraintSource} {e e' : Expr} {s : SExpr} {t : Ty} :
      Each KeyDecl d.matchFields vs → ReadConstraint pton .table (keySig vs) d.preamble (some (src, e, s, t)) →
      t ≠ .boolean → TypedForm e t e' →
      TableError x pton d entry .invalidArgument
        (c!"table " ++ d.preamble.name ++ c!" has non-boolean constraint: " ++ x.expression e')
  | entry {vs : List VarInfo} {src : ConstraintSource} {e : Expr} {s : SExpr} {c : Code} {text : Str} :
      Each KeyDecl d.matchFields vs → ReadConstraint pton .table (keySig vs) d.preamble (some (src, e, s, .boolean)) →
      MatchesFault x vs entry.matches_ c text →
      TableError x pton d entry c
        (text ++ c!";  while parsing P4RT table entry for table '" ++ d.preamble.name ++ c!"':")
  | judge {vs : List VarInfo} {src : ConstraintSource} {e : Expr} {s : SExpr} {ρ : Env} {c : Code} {text : Str} :
      Each KeyDecl d.matchFields vs → ReadConstraint pton .table (keySig vs) d.preamble (some (src, e, s, .boolean)) →
      EntryFits vs entry → EntryMeans vs entry ρ → JudgeFault x d.preamble.name src (keySig vs) ρ e c text →
      TableError x pton d entry c text

/-- Why the constraint of the action `d` cannot be judged of the invocation. -/
inductive ActionError (x : EntryTexts) (pton : Str → Option Bytes) (d : ActionDecl) (a : RtAction) : Code → Str → Prop where
  | nonBoolean {vs : List VarInfo} {src : ConstraintSource} {e e' : Expr} {s : SExpr} {t : Ty} :
      Each ParamIs d.params vs → ReadConstraint pton .action (paramSig vs) d.preamble (some (src, e, s, t)) →
      t ≠ .boolean → TypedForm e t e' →
      ActionError x pton d a .invalidArgument
        (c!"action " ++ d.preamble.name ++ c!" has non-boolean constraint: " ++ x.expression e')
  | entry {vs : List VarInfo} {src : ConstraintSource} {e : Expr} {s : SExpr} {text : Str} :
      Each ParamIs d.params vs → ReadConstraint pton .action (paramSig vs) d.preamble (some (src, e, s, .boolean)) →
      ArgsFault vs a.params text →
      ActionError x pton d a .invalidArgument
        (text ++ c!";  while parsing P4RT table entry for action '" ++ d.preamble.name ++ c!"':")
  | judge {vs : List VarInfo} {src : ConstraintSource} {e : Expr} {s : SExpr} {ρ : Env} {c : Code} {text : Str} :
      Each ParamIs d.params vs → ReadConstraint pton .action (paramSig vs) d.preamble (some (src, e, s, .boolean)) →
      ArgsFit vs a.params → ActionMeans vs a ρ → JudgeFault x d.preamble.name src (paramSig vs) ρ e c text →
      ActionError x pton d a c text

/-- The entry satisfies the constraint of the table, if there is one. -/
inductive TablePasses (pton : Str → Option Bytes) (d : TableDecl) (entry : RtEntry) : Prop where
  | unconstrained : Attached .table d.preamble none → TablePasses pton d entry
  | satisfied {vs : List VarInfo} {src : ConstraintSource} {e : Expr} {s : SExpr} {ρ : Env} :
      Each KeyDecl d.matchFields vs → ReadConstraint pton .table (keySig vs) d.preamble (some (src, e, s, .boolean)) →
      EntryFits vs entry → EntryMeans vs entry ρ → Evaluates (keySig vs) ρ s .boolean (.bool true) →
      TablePasses pton d entry

/-- The invocation satisfies the constraint of the action, if there is one. -/
inductive ActionPasses (pton : Str → Option Bytes) (d : ActionDecl) (a : RtAction) : Prop where
  | unconstrained : Attached .action d.preamble none → ActionPasses pton d a
  | satisfied {vs : List VarInfo} {src : ConstraintSource} {e : Expr} {s : SExpr} {ρ : Env} :
      Each ParamIs d.params vs → ReadConstraint pton .action (paramSig vs) d.preamble (some (src, e, s, .boolean)) →
      ArgsFit vs a.params → ActionMeans vs a ρ → Evaluates (paramSig vs) ρ s .boolean (.bool true) →
      ActionPasses pton d a

/-- What is wrong with the first action that does not pass. -/
inductive ActionsError (x : EntryTexts) (pton : Str → Option Bytes) (p : P4Info) : List RtAction → Code → Str → Prop where
  | unknown {pre post : List RtAction} {a : RtAction} {s : Str} :
      (∀ b ∈ pre, ∃ d ∈ p.actions, d.preamble.id = b.actionId ∧ ActionPasses pton d b) →
      (∀ d ∈ p.actions, d.preamble.id ≠ a.actionId) → IdText a.actionId s →
      ActionsError x pton p (pre ++ a :: post) .invalidArgument (c!"action entry with unknown action ID " ++ s)
  | error {pre post : List RtAction} {a : RtAction} {d : ActionDecl} {c : Code} {text : Str} :
      (∀ b ∈ pre, ∃ d ∈ p.actions, d.preamble.id = b.actionId ∧ ActionPasses pton d b) →
      d ∈ p.actions → d.preamble.id = a.actionId → ActionError x pton d a c text →
      ActionsError x pton p (pre ++ a :: post) c text

/-- Why an entry for a table of the program `p` cannot be judged, and what there is to say about it. -/
inductive EntryError (x : EntryTexts) (pton : Str → Option Bytes) (p : P4Info) (entry : RtEntry) : Code → Str → Prop where
  | unknown {s : Str} : (∀ d ∈ p.tables, d.preamble.id ≠ entry.tableId) → IdText entry.tableId s →
      EntryError x pton p entry .invalidArgument (c!"table entry with unknown table ID " ++ s)
  | table {d : TableDecl} {c : Code} {text : Str} : d ∈ p.tables → d.preamble.id = entry.tableId →
      TableError x pton d entry c text → EntryError x pton p entry c text
  | reference {d : TableDecl} {n : Nat} : d ∈ p.tables → d.preamble.id = entry.tableId → TablePasses pton d entry →
      entry.action = some (.memberId n) ∨ entry.action = some (.groupId n) →
      EntryError x pton p entry .invalidArgument
        (c!"action restrictions not supported for entries with the given kind of action: " ++ x.entry entry)
  | empty {d : TableDecl} : d ∈ p.tables → d.preamble.id = entry.tableId → TablePasses pton d entry →
      entry.action = some .notSet →
      EntryError x pton p entry .invalidArgument (c!"unknown action type " ++ x.actionCase .notSet)
  | actions {d : TableDecl} {as : List RtAction} {c : Code} {text : Str} : d ∈ p.tables → d.preamble.id = entry.tableId →
      TablePasses pton d entry → actionsOf entry.action = some as → ActionsError x pton p as c text →
      EntryError x pton p entry c text

/-- Declared widths are not negative. -/
def NonNegProgram (p : P4Info) : Prop :=
  (∀ d ∈ p.tables, ∀ f ∈ d.matchFields, 0 ≤ f.bitwidth) ∧ ∀ d ∈ p.actions, ∀ f ∈ d.params, 0 ≤ f.bitwidth

end P4C.Spec
