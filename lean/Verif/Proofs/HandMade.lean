import Verif.Spec.HandMade
import Verif.Proofs.QuoteNode
import Verif.Proofs.ParseTotal
import Verif.Proofs.Check

/-
Lemmas for C101.
-/

namespace P4C

open Spec

/-- An answer, one of the two codes, or a crash that `safe` rules out. -/
def Proper {α : Type} (safe : Prop) (r : Res α) : Prop :=
  match r with
  | .ok _ => True
  | .err c => c = .invalidArgument ∨ c = .internal
  | .crash => ¬ safe
  | .oof => False

theorem Proper.mono {α : Type} {s s' : Prop} {r : Res α} (h : Proper s r) (hs : s' → s) : Proper s' r := by
  cases r with
  | crash => exact fun h' => h (hs h')
  | _ => exact h

theorem Proper.bind {α β : Type} {s : Prop} {r : Res α} {f : α → Res β} (h : Proper s r)
    (hf : ∀ a, r = .ok a → Proper s (f a)) : Proper s (r >>= f) := by
  cases r with
  | ok a => exact hf a rfl
  | err c => exact h
  | crash => exact h
  | oof => exact h.elim

theorem Proper.answers {α : Type} {r : Res α} (h : Proper True r) : Answers r := by
  cases r with
  | ok a => exact .inl ⟨a, rfl⟩
  | err c => rcases h with rfl | rfl <;> simp [Answers]
  | crash => exact (h trivial).elim
  | oof => exact h.elim

theorem Proper.codes {α : Type} {r : Res α} (h : Proper False r) : Answers r ∨ r = .crash := by
  cases r with
  | ok a => exact .inl (.inl ⟨a, rfl⟩)
  | err c => rcases h with rfl | rfl <;> simp [Answers]
  | crash => exact .inr rfl
  | oof => exact h.elim

theorem discardLines_proper : ∀ n s, Proper True (discardLines n s)
  | 0, _ => trivial
  | n + 1, s => by
    unfold discardLines
    split
    · exact discardLines_proper n _
    · exact .inl rfl

theorem contextLines_proper (pre : Str) : ∀ n s, Proper True (contextLines pre n s)
  | 0, _ => trivial
  | n + 1, s => by
    unfold contextLines
    split
    · exact (contextLines_proper pre n _).bind fun _ _ => trivial
    · exact .inl rfl

theorem stringFill_proper (n : Int) (c : Char) : Proper False (stringFill n c) := by
  unfold stringFill
  split
  · exact id
  · trivial

theorem quoteSub_proper (src : ConstraintSource) {a b : Loc} {safe : Prop}
    (h : safe → a.line = b.line ∧ 0 ≤ a.col ∧ a.col ≤ b.col) : Proper safe (quoteSub src a b) := by
  have hn : safe → quoteSub src a b ≠ .crash := fun hs => quoteSub_ne_crash (h hs).1.symm (h hs).2.1 (h hs).2.2
  suffices Proper False (quoteSub src a b) by
    generalize quoteSub src a b = r at *
    cases r with
    | crash => exact fun hs => hn hs rfl
    | _ => exact this
  unfold quoteSub
  split
  · exact .inl rfl
  · refine Proper.bind (s := False) ?_ fun _ _ => Proper.bind ?_ fun _ _ => trivial
    · unfold explainLoc
      cases a.src <;> simp [Proper]
    · unfold quote
      split
      · trivial
      · refine ((discardLines_proper _ _).mono nofun).bind fun s _ =>
          ((contextLines_proper _ _ _).mono nofun).bind fun x _ => ?_
        dsimp only
        split
        · exact .inl rfl
        · refine Proper.bind ?_ fun _ _ => Proper.bind ?_ fun _ _ => trivial
          · exact stringFill_proper _ _
          · exact stringFill_proper _ _

theorem rtError_proper {α : Type} (ctx : EvalCtx) (e : Expr) {safe : Prop} (h : safe → Tame e) :
    Proper safe (rtError (α := α) ctx e) := by
  have := quoteSub_proper ctx.src (a := e.start) (b := e.stop) (safe := safe)
    fun hs => ⟨(h hs).line, (h hs).col, (h hs).order⟩
  unfold rtError runtimeTypeError
  split
  · exact .inr rfl
  · exact .inr rfl
  · rename_i hq; rw [hq] at this; exact this
  · rename_i hq; rw [hq] at this; exact this

theorem everywhere_root {P : Expr → Prop} {e : Expr} (h : Everywhere P e) : P e := by
  cases e <;> first | exact h | exact h.1

theorem evalToBoolWith_proper {ctx : EvalCtx} {e : Expr} {p : Path} {run : Cache → Res (Value × Cache)} {c : Cache} {safe : Prop}
    (h : safe → Tame e) (hr : ∀ c, Proper safe (run c)) : Proper safe (evalToBoolWith ctx e p run c) := by
  unfold evalToBoolWith
  split
  · trivial
  · refine (hr c).bind fun x _ => ?_
    dsimp only
    split
    · trivial
    · exact rtError_proper ctx e h

theorem evalToIntWith_proper {ctx : EvalCtx} {e : Expr} {run : Cache → Res (Value × Cache)} {c : Cache} {safe : Prop}
    (h : safe → Tame e) (hr : ∀ c, Proper safe (run c)) : Proper safe (evalToIntWith ctx e run c) := by
  unfold evalToIntWith
  refine (hr c).bind fun x _ => ?_
  dsimp only
  split
  · trivial
  · exact rtError_proper ctx e h

theorem dynCheck_proper {ctx : EvalCtx} {e : Expr} {r : Res (Value × Cache)} {safe : Prop} (h : safe → Tame e)
    (hr : Proper safe r) : Proper safe (dynCheck ctx e r) := by
  unfold dynCheck
  refine hr.bind fun x _ => ?_
  dsimp only
  split
  · trivial
  · exact rtError_proper ctx e h

theorem shl1_proper {w : Int} {safe : Prop} (h : safe → 0 ≤ w) : Proper safe (shl1 w) := by
  unfold shl1
  split
  · intro hs
    have := h hs
    omega
  · trivial

theorem castValue_proper {ctx : EvalCtx} {e : Expr} {t : Ty} {v : Value} {safe : Prop} (h : safe → Tame e)
    (ht : safe → NonNeg t) : Proper safe (castValue ctx e t v) := by
  unfold castValue
  split
  · split
    · exact (shl1_proper ht).bind fun _ _ => trivial
    · trivial
    · exact (shl1_proper ht).bind fun _ _ => trivial
    · exact (shl1_proper ht).bind fun _ _ => trivial
    · trivial
    · trivial
    · exact rtError_proper ctx e h
  · exact rtError_proper ctx e h

theorem eval_proper {ctx : EvalCtx} : ∀ {e : Expr} {p : Path} {c : Cache} {safe : Prop}, (safe → Everywhere Tame e) →
    Proper safe (eval ctx e p c) := by
  intro e
  induction e with
  | boolConst i b => intro p c safe h; exact dynCheck_proper h trivial
  | intConst i s =>
    intro p c safe h
    refine dynCheck_proper h ?_
    split
    · trivial
    · exact .inr rfl
  | key i n =>
    intro p c safe h
    refine dynCheck_proper h ?_
    split
    · exact rtError_proper _ _ h
    · split
      · trivial
      · exact rtError_proper _ _ h
  | actionParam i n =>
    intro p c safe h
    refine dynCheck_proper h ?_
    split
    · exact rtError_proper _ _ h
    · split
      · trivial
      · exact rtError_proper _ _ h
  | attr i n =>
    intro p c safe h
    refine dynCheck_proper h ?_
    split
    · exact rtError_proper _ _ h
    · split
      · trivial
      · exact rtError_proper _ _ h
  | notSet i => intro p c safe h; exact dynCheck_proper h (.inl rfl)
  | boolNeg i e ih =>
    intro p c safe h
    have h2 : safe → Everywhere Tame e := fun hs => (h hs).2
    exact dynCheck_proper (fun hs => (h hs).1)
      ((evalToBoolWith_proper (fun hs => everywhere_root (h2 hs)) fun _ => ih h2).bind fun _ _ => trivial)
  | arithNeg i e ih =>
    intro p c safe h
    have h2 : safe → Everywhere Tame e := fun hs => (h hs).2
    exact dynCheck_proper (fun hs => (h hs).1)
      ((evalToIntWith_proper (fun hs => everywhere_root (h2 hs)) fun _ => ih h2).bind fun _ _ => trivial)
  | typeCast i e ih =>
    intro p c safe h
    have h2 : safe → Everywhere Tame e := fun hs => (h hs).2
    exact dynCheck_proper (fun hs => (h hs).1) ((ih h2).bind fun x _ =>
      (castValue_proper (fun hs => everywhere_root (h2 hs)) fun hs => (h hs).1.width _ _ rfl).bind fun _ _ => trivial)
  | field i e f ih =>
    intro p c safe h
    have h2 : safe → Everywhere Tame e := fun hs => (h hs).2
    refine dynCheck_proper (fun hs => (h hs).1) ((ih h2).bind fun x _ => ?_)
    dsimp only
    split
    · trivial
    · exact rtError_proper _ _ fun hs => (h hs).1
  | bin i op l r ihl ihr =>
    intro p c safe h
    have hl : safe → Everywhere Tame l := fun hs => (h hs).2.1
    have hr : safe → Everywhere Tame r := fun hs => (h hs).2.2
    have bl : ∀ {p c}, Proper safe (evalToBoolWith ctx l p (fun c => eval ctx l p c) c) :=
      evalToBoolWith_proper (fun hs => everywhere_root (hl hs)) fun _ => ihl hl
    have br : ∀ {p c}, Proper safe (evalToBoolWith ctx r p (fun c => eval ctx r p c) c) :=
      evalToBoolWith_proper (fun hs => everywhere_root (hr hs)) fun _ => ihr hr
    have il : ∀ {p c}, Proper safe (evalToIntWith ctx l (fun c => eval ctx l p c) c) :=
      evalToIntWith_proper (fun hs => everywhere_root (hl hs)) fun _ => ihl hl
    have ir : ∀ {p c}, Proper safe (evalToIntWith ctx r (fun c => eval ctx r p c) c) :=
      evalToIntWith_proper (fun hs => everywhere_root (hr hs)) fun _ => ihr hr
    refine dynCheck_proper (fun hs => (h hs).1) ?_
    cases op with
    | eq | ne => exact (ihl hl).bind fun _ _ => (ihr hr).bind fun _ _ => trivial
    | gt | ge | lt | le => exact il.bind fun _ _ => ir.bind fun _ _ => trivial
    | and | or | implies =>
      refine bl.bind fun x _ => ?_
      dsimp only
      split
      · first | trivial | exact br.bind fun _ _ => trivial
      · first | trivial | exact br.bind fun _ _ => trivial
    | unknown => exact .inr rfl

theorem evalToBoolC_proper {ctx : EvalCtx} {e : Expr} {p : Path} {c : EvalCache} {safe : Prop} (h : safe → Everywhere Tame e) :
    Proper safe (evalToBoolC ctx e p c) :=
  (evalToBoolWith_proper (fun hs => everywhere_root (h hs)) fun _ => eval_proper h).bind fun _ _ => trivial

theorem sizeC_proper {safe : Prop} : ∀ {e : Expr} {p : Path} {c : SizeCache}, Proper safe (sizeC e p c) := by
  intro e
  induction e with
  | bin i op l r ihl ihr =>
    intro p c
    unfold sizeC
    split
    · trivial
    · exact ihl.bind fun _ _ => ihr.bind fun _ _ => trivial
  | boolNeg i e ih =>
    intro p c
    unfold sizeC
    split
    · trivial
    · exact ih.bind fun _ _ => trivial
  | actionParam | notSet =>
    intro p c
    unfold sizeC
    split
    · trivial
    · exact .inl rfl
  | _ =>
    intro p c
    unfold sizeC
    split <;> trivial

/-- The search for an explanation, whose result is tame if the constraint is. -/
theorem minimalSub_proper {ctx : EvalCtx} {safe : Prop} : ∀ {e : Expr} {p : Path} {cs : Caches}, (safe → Everywhere Tame e) →
    Proper safe (minimalSub ctx e p cs) ∧ ∀ n cs', minimalSub ctx e p cs = .ok (n, cs') → safe → Everywhere Tame n.1 := by
  intro e
  induction e with
  | boolConst i b =>
    intro p cs h
    refine ⟨trivial, fun n cs' hm hs => ?_⟩
    cases hm
    exact h hs
  | boolNeg i e ih => intro p cs h; exact ih fun hs => (h hs).2
  | bin i op l r ihl ihr =>
    intro p cs h
    have hl : safe → Everywhere Tame l := fun hs => (h hs).2.1
    have hr : safe → Everywhere Tame r := fun hs => (h hs).2.2
    have leaf : ∀ {op : BinOp} {cs0 : Caches} {n cs'}, (Res.ok ((Expr.bin i op l r, p), cs0) : Res (Node × Caches)) = .ok (n, cs') →
        (safe → Everywhere Tame (.bin i op l r)) → safe → Everywhere Tame n.1 := by
      intro op cs0 n cs' hm hh hs
      cases hm
      exact hh hs
    cases op with
    | eq | ne | gt | ge | lt | le => exact ⟨trivial, fun n cs' hm => leaf hm h⟩
    | unknown => exact ⟨.inr rfl, nofun⟩
    | and | or | implies =>
      unfold minimalSub
      constructor
      · refine (evalToBoolC_proper hl).bind fun x _ => (evalToBoolC_proper hr).bind fun y _ => ?_
        dsimp only
        split
        · trivial
        · exact (ihl hl).1
        · exact (ihr hr).1
        · exact (ihl hl).1.bind fun _ _ => (ihr hr).1.bind fun _ _ => sizeC_proper.bind fun _ _ => sizeC_proper.bind fun _ _ => trivial
      · intro n cs' hm
        simp only [Res.bind_eq_ok] at hm
        obtain ⟨x, _, y, _, hm⟩ := hm
        split at hm
        · exact leaf hm h
        · exact (ihl hl).2 _ _ hm
        · exact (ihr hr).2 _ _ hm
        · simp only [Res.bind_eq_ok] at hm
          obtain ⟨n0, g0, n1, g1, _, _, _, _, hm⟩ := hm
          simp only [Res.ok.injEq, Prod.mk.injEq] at hm
          obtain ⟨rfl, _⟩ := hm
          split
          · exact (ihl hl).2 _ _ g0
          · exact (ihr hr).2 _ _ g1
  | _ => intro p cs h; exact ⟨.inr rfl, nofun⟩

theorem explainViolation_proper {ctx : EvalCtx} {e : Expr} {ec : EvalCache} {safe : Prop} (h : safe → Everywhere Tame e) :
    Proper safe (explainViolation ctx e ec) := by
  unfold explainViolation
  refine (minimalSub_proper h).1.bind fun x hx => ?_
  have hn := (minimalSub_proper h).2 _ _ hx
  refine (evalToBoolC_proper hn).bind fun _ _ => Proper.bind ?_ fun _ _ => trivial
  exact quoteSub_proper _ fun hs => ⟨(everywhere_root (hn hs)).line, (everywhere_root (hn hs)).col, (everywhere_root (hn hs)).order⟩

theorem checkConstraint_proper {e : Expr} {parse : Res EvalCtx} {safe : Prop} (h : safe → Everywhere Tame e)
    (hp : Proper safe parse) : Proper safe (checkConstraint e parse) := by
  unfold checkConstraint
  split
  · exact .inl rfl
  · refine hp.bind fun ctx _ => (evalToBoolC_proper h).bind fun x _ => ?_
    dsimp only
    split
    · trivial
    · exact explainViolation_proper h

theorem parseMatches_proper {ti : TableInfo} {safe : Prop} (h : safe → ∀ n ki, (n, ki) ∈ ti.keysById → NonNeg ki.ty) :
    ∀ {fms : List FieldMatch} {keys : List (Str × Value)}, Proper safe (parseMatches ti keys fms)
  | [], _ => trivial
  | fm :: fms, keys => by
    unfold parseMatches
    refine Proper.bind ?_ fun x _ => ?_
    · unfold parseKey
      split
      · exact .inl rfl
      · rename_i ki hk
        have hmem := lookup_some_mem hk
        split
        · split
          · trivial
          · exact .inr rfl
        · split
          · trivial
          · exact .inr rfl
        · split
          · trivial
          · exact .inr rfl
        · split
          · trivial
          · exact .inr rfl
        · split
          · rename_i w hw
            refine Proper.bind (Proper.bind (shl1_proper fun hs => ?_) fun _ _ => trivial) fun _ _ => trivial
            have := h hs _ _ hmem
            rw [hw] at this
            exact this
          · exact .inr rfl
        · exact .inl rfl
        · exact .inl rfl
    · dsimp only
      split
      · exact .inl rfl
      · exact parseMatches_proper h

theorem addDefaults_proper {safe : Prop} : ∀ {kis : List (Str × VarInfo)} {keys : List (Str × Value)},
    (safe → ∀ n ki, (n, ki) ∈ kis → NonNeg ki.ty) → Proper safe (addDefaults keys kis)
  | [], _, _ => trivial
  | (n, ki) :: kis, keys, h => by
    have ih : ∀ {keys}, Proper safe (addDefaults keys kis) :=
      addDefaults_proper fun hs n ki hm => h hs n ki (List.mem_cons_of_mem _ hm)
    unfold addDefaults
    split
    · exact ih
    · refine Proper.bind ?_ fun _ _ => ih
      unfold defaultValue
      split
      · exact .inl rfl
      · trivial
      · trivial
      · trivial
      · rename_i w hw
        refine Proper.bind (Proper.bind (shl1_proper fun hs => ?_) fun _ _ => trivial) fun _ _ => trivial
        have := h hs _ _ (List.mem_cons_self ..)
        rw [hw] at this
        exact this
      · exact .inr rfl

theorem parseParams_proper {ai : ActionInfo} {safe : Prop} : ∀ {ps : List (Nat × Bytes)} {acc : List (Str × Int)},
    Proper safe (parseParams ai acc ps)
  | [], _ => trivial
  | (id, v) :: ps, acc => by
    unfold parseParams
    split
    · exact .inl rfl
    · split
      · exact .inl rfl
      · exact parseParams_proper

theorem reasonAction_proper {ci : ConstraintInfo} {a : RtAction} {safe : Prop} (h : safe → TameInfo ci) :
    Proper safe (reasonAction a ci) := by
  unfold reasonAction
  split
  · exact .inl rfl
  · rename_i ai hai
    split
    · trivial
    · rename_i c hc
      exact checkConstraint_proper (fun hs => (h hs).actions _ _ _ (lookup_some_mem hai) hc)
        (parseParams_proper.bind fun _ _ => trivial)

theorem reasonActionSet_proper {ci : ConstraintInfo} {safe : Prop} (h : safe → TameInfo ci) :
    ∀ {as : List RtAction}, Proper safe (reasonActionSet ci as)
  | [] => trivial
  | a :: as => by
    unfold reasonActionSet
    refine (reasonAction_proper h).bind fun _ _ => ?_
    split
    · trivial
    · exact reasonActionSet_proper h

theorem reasonEntry_proper {ci : ConstraintInfo} {entry : RtEntry} {safe : Prop} (h : safe → TameInfo ci) :
    Proper safe (reasonEntryViolatesConstraint entry ci) := by
  unfold reasonEntryViolatesConstraint
  split
  · exact .inl rfl
  · rename_i ti hti
    have rest : ∀ {reason : Str}, Proper safe
        (if reason ≠ [] then Res.ok reason else reasonTableAction ci entry.action : Res Str) := by
      intro reason
      split
      · trivial
      · unfold reasonTableAction
        split
        · trivial
        · exact reasonAction_proper h
        · exact .inl rfl
        · exact .inl rfl
        · exact reasonActionSet_proper h
        · exact .inl rfl
    dsimp only
    split
    · exact Proper.bind (r := .ok []) trivial fun _ _ => rest
    · rename_i c hc
      refine Proper.bind ?_ fun _ _ => rest
      refine checkConstraint_proper (fun hs => (h hs).tables _ _ _ (lookup_some_mem hti) hc) ?_
      exact (parseMatches_proper fun hs n ki hm => (h hs).byId _ _ _ _ (lookup_some_mem hti) hm).bind fun _ _ =>
        (addDefaults_proper fun hs n ki hm => (h hs).byName _ _ _ _ (lookup_some_mem hti) hm).bind fun _ _ => trivial

theorem suitsType_of_matches {t : Ty} {v : Value} (h : valueMatchesTy t v = true) : SuitsType t v := by
  cases t <;> cases v <;> first | (cases h; done) | constructor

theorem suitsType_bool {t : Ty} {b : Bool} (h : SuitsType t (.bool b)) : t = .boolean := by cases h; rfl

theorem suitsType_int {t : Ty} {z : Int} (h : SuitsType t (.int z)) : IntTy t := by
  cases h
  · exact .inl rfl
  · exact .inr ⟨_, rfl⟩

theorem chkP_val {ctx : EvalCtx} {e : Expr} {r : Res Value} {v : Value} (h : chkP ctx e r = .ok v) : r = .ok v ∧ SuitsType e.ty v := by
  unfold chkP at h
  simp only [Res.bind_eq_ok] at h
  obtain ⟨x, hr, h⟩ := h
  split at h
  · rename_i hm
    cases h
    exact ⟨hr, suitsType_of_matches hm⟩
  · exact (rtError_ne_ok.1 h).elim

theorem evalP_kind {ctx : EvalCtx} {e : Expr} {v : Value} (h : evalP ctx e = .ok v) : SuitsType e.ty v := by
  cases e <;> exact (chkP_val h).2

theorem toBoolP_val {ctx : EvalCtx} {e : Expr} {r : Res Value} {b : Bool} (h : toBoolP ctx e r = .ok b) : r = .ok (.bool b) := by
  unfold toBoolP at h
  simp only [Res.bind_eq_ok] at h
  obtain ⟨x, hr, h⟩ := h
  split at h
  · cases h; exact hr
  · exact (rtError_ne_ok.1 h).elim

theorem toIntP_val {ctx : EvalCtx} {e : Expr} {r : Res Value} {z : Int} (h : toIntP ctx e r = .ok z) : r = .ok (.int z) := by
  unfold toIntP at h
  simp only [Res.bind_eq_ok] at h
  obtain ⟨x, hr, h⟩ := h
  split at h
  · cases h; exact hr
  · exact (rtError_ne_ok.1 h).elim

theorem evalFieldAccess_int {f : Str} {v w : Value} (h : evalFieldAccess f v = some w) : ∃ z, w = .int z := by
  cases v <;> simp only [evalFieldAccess] at h <;> (repeat' split at h) <;> first | cases h; done | (cases h; exact ⟨_, rfl⟩)

/-- If there is a value, then the parts that are evaluated anyhow have values as well. -/
theorem evalP_part {ctx : EvalCtx} {e : Expr} {v : Value} (h : evalP ctx e = .ok v) : Marked e ∧
    match e with
    | .boolNeg _ e | .arithNeg _ e | .typeCast _ e | .field _ e _ => ∃ v, evalP ctx e = .ok v
    | .bin _ op l r => (∃ v, evalP ctx l = .ok v) ∧ (¬ ShortCircuits op → ∃ v, evalP ctx r = .ok v)
    | _ => True := by
  cases e with
  | notSet i =>
    obtain ⟨h, _⟩ := chkP_val h
    cases h
  | boolConst i b =>
    obtain ⟨h, hk⟩ := chkP_val h
    cases h
    exact ⟨suitsType_bool hk, trivial⟩
  | intConst i s =>
    obtain ⟨h, hk⟩ := chkP_val h
    split at h <;> cases h
    exact ⟨suitsType_int hk, trivial⟩
  | key i n => exact ⟨⟨v, (chkP_val h).2⟩, trivial⟩
  | actionParam i n =>
    obtain ⟨h, hk⟩ := chkP_val h
    split at h
    · exact (rtError_ne_ok.1 h).elim
    · split at h
      · cases h
        exact ⟨suitsType_int hk, trivial⟩
      · exact (rtError_ne_ok.1 h).elim
  | attr i n =>
    obtain ⟨h, hk⟩ := chkP_val h
    split at h
    · exact (rtError_ne_ok.1 h).elim
    · split at h
      · cases h
        exact ⟨suitsType_int hk, trivial⟩
      · exact (rtError_ne_ok.1 h).elim
  | field i e f =>
    obtain ⟨h, hk⟩ := chkP_val h
    simp only [Res.bind_eq_ok] at h
    obtain ⟨x, hx, h⟩ := h
    split at h
    · rename_i hf
      cases h
      obtain ⟨z, rfl⟩ := evalFieldAccess_int hf
      exact ⟨suitsType_int hk, x, hx⟩
    · exact (rtError_ne_ok.1 h).elim
  | boolNeg i e =>
    obtain ⟨h, hk⟩ := chkP_val h
    simp only [Res.bind_eq_ok] at h
    obtain ⟨b, hb, h⟩ := h
    cases h
    have := toBoolP_val hb
    exact ⟨⟨suitsType_bool hk, suitsType_bool (evalP_kind this)⟩, _, this⟩
  | arithNeg i e =>
    obtain ⟨h, hk⟩ := chkP_val h
    simp only [Res.bind_eq_ok] at h
    obtain ⟨b, hb, h⟩ := h
    cases h
    have := toIntP_val hb
    exact ⟨⟨suitsType_int hk, suitsType_int (evalP_kind this)⟩, _, this⟩
  | typeCast i e =>
    obtain ⟨h, hk⟩ := chkP_val h
    simp only [Res.bind_eq_ok] at h
    obtain ⟨x, hx, h⟩ := h
    have hk' := evalP_kind hx
    unfold castValue at h
    split at h
    · refine ⟨⟨suitsType_int hk', ?_, ?_, v, hk⟩, _, hx⟩
      · intro ht; rw [ht] at h; exact rtError_ne_ok.1 h
      · intro ht; rw [ht] at h; exact rtError_ne_ok.1 h
    · exact (rtError_ne_ok.1 h).elim
  | bin i op l r =>
    obtain ⟨h, hk⟩ := chkP_val h
    cases op with
    | unknown => cases h
    | eq | ne =>
      simp only [Res.bind_eq_ok] at h
      obtain ⟨x, hx, y, hy, h⟩ := h
      cases h
      exact ⟨⟨suitsType_bool hk, nofun, by simp [ShortCircuits], by simp⟩, ⟨_, hx⟩, fun _ => ⟨_, hy⟩⟩
    | gt | ge | lt | le =>
      simp only [Res.bind_eq_ok] at h
      obtain ⟨x, hx, y, hy, h⟩ := h
      cases h
      have hx := toIntP_val hx
      have hy := toIntP_val hy
      exact ⟨⟨suitsType_bool hk, nofun, by simp [ShortCircuits], fun _ => ⟨suitsType_int (evalP_kind hx), suitsType_int (evalP_kind hy)⟩⟩,
        ⟨_, hx⟩, fun _ => ⟨_, hy⟩⟩
    | and | or | implies =>
      simp only [Res.bind_eq_ok] at h
      obtain ⟨x, hx, h⟩ := h
      have hx := toBoolP_val hx
      have hb : i.ty = .boolean := by
        split at h <;> try simp only [Res.bind_eq_ok] at h
        all_goals first
          | (cases h; exact suitsType_bool hk)
          | (obtain ⟨y, _, h⟩ := h; cases h; exact suitsType_bool hk)
      exact ⟨⟨hb, nofun, fun _ => suitsType_bool (evalP_kind hx), by simp⟩, ⟨_, hx⟩, fun h => absurd (by simp [ShortCircuits]) h⟩

theorem evalP_reached {ctx : EvalCtx} {e x : Expr} (hx : Reached e x) : ∀ {v : Value}, evalP ctx e = .ok v → Marked x := by
  induction hx with
  | self e => intro v h; exact (evalP_part h).1
  | boolNeg _ ih | arithNeg _ ih | typeCast _ ih | field _ ih => intro v h; exact ih (evalP_part h).2.choose_spec
  | left _ ih => intro v h; exact ih (evalP_part h).2.1.choose_spec
  | right hop _ ih => intro v h; exact ih ((evalP_part h).2.2 hop).choose_spec

theorem checkConstraint_value {c : Expr} {parse : Res EvalCtx} {msg : Str} (h : checkConstraint c parse = .ok msg) :
    ∃ ctx v, evalP ctx c = .ok v := by
  by_cases hm : msg = []
  · subst hm
    obtain ⟨_, ctx, _, he⟩ := checkConstraint_satisfied.1 h
    exact ⟨ctx, _, toBoolP_val he⟩
  · obtain ⟨_, ctx, _, _, he, _⟩ := checkConstraint_violated hm h
    exact ⟨ctx, _, toBoolP_val he⟩

/-- Of an entry that is accepted, the action is accepted. -/
theorem reasonEntry_action {ci : ConstraintInfo} {entry : RtEntry} (h : reasonEntryViolatesConstraint entry ci = .ok []) :
    reasonTableAction ci entry.action = .ok [] := by
  unfold reasonEntryViolatesConstraint at h
  cases ht : getTableInfo ci entry.tableId with
  | none => simp [ht] at h
  | some ti =>
    cases hc : ti.constraint with
    | none => simpa [ht, hc] using h
    | some c =>
      simp only [ht, hc, Res.bind_eq_ok] at h
      obtain ⟨r, _, h⟩ := h
      split at h
      · rename_i hr
        cases h
        exact (hr rfl).elim
      · exact h

theorem dynCheck_kind {ctx : EvalCtx} {e : Expr} {r : Res (Value × Cache)} {v : Value} {c : Cache}
    (h : dynCheck ctx e r = .ok (v, c)) : SuitsType e.ty v := by
  unfold dynCheck at h
  simp only [Res.bind_eq_ok] at h
  obtain ⟨x, _, h⟩ := h
  split at h
  · rename_i hm
    cases h
    exact suitsType_of_matches hm
  · exact (rtError_ne_ok.1 h).elim

end P4C
