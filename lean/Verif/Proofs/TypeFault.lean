import Verif.Spec.TypeError
import Verif.Proofs.Message
import Verif.Proofs.Typing
import Verif.Proofs.Quotation
import Verif.Proofs.Blame

/-
Type errors are about the first ill-typed part of a constraint.
-/

namespace P4C

open Spec

/-! ### Names -/

theorem intNumeral_iff {z : Int} {s : Str} : IntNumeral z s ↔ s = intDec z := by
  constructor
  · intro h
    cases h with
    | nonneg h => exact (numeral_iff (by omega)).1 ⟨_, rfl, h⟩
    | @neg n s hn h =>
      obtain ⟨k, rfl⟩ : ∃ k, n = k + 1 := ⟨n - 1, by omega⟩
      have := (numeral_iff (z := ((k + 1 : Nat) : Int)) (by omega)).1 ⟨_, rfl, h⟩
      rw [this, show -((k + 1 : Nat) : Int) = Int.negSucc k from rfl]
      rfl
  · rintro rfl
    match z with
    | .ofNat n => exact .nonneg (natDec_canonical n)
    | .negSucc n => exact IntNumeral.neg (n := n + 1) (by omega) (natDec_canonical (n + 1))

theorem intNumeral_unique {y z : Int} {s : Str} (h : IntNumeral y s) (h' : IntNumeral z s) : y = z := by
  have no : ∀ {s : Str} {n : Nat}, ¬ Canonical ('-' :: s) n := by
    rintro s n ⟨hv, _⟩
    obtain ⟨d, hd, _⟩ := hv.mem '-' (by simp)
    simp [digits] at hd
  cases h with
  | nonneg h =>
    generalize hs : s = s' at h'
    cases h' with
    | nonneg h' => subst hs; rw [numVal_unique h.1 h'.1]
    | neg _ _ => subst hs; exact (no h).elim
  | neg _ h =>
    generalize hs : '-' :: _ = s' at h'
    cases h' with
    | nonneg h' => subst hs; exact (no h').elim
    | neg _ h' => cases hs; rw [numVal_unique h.1 h'.1]

theorem intDec_inj {a b : Int} (e : intDec a = intDec b) : a = b :=
  intNumeral_unique (intNumeral_iff.2 rfl) (by rw [e]; exact intNumeral_iff.2 rfl)

theorem reported_iff {t : Ty} {s : Str} : PrintedName t s ↔ s = typeName t := by
  constructor
  · intro h
    cases h with
    | right h hl =>
      cases h with
      | lpm => exact absurd rfl (hl _)
      | bit h => rw [intNumeral_iff.1 h]; rfl
      | exact h => rw [intNumeral_iff.1 h]; rfl
      | ternary h => rw [intNumeral_iff.1 h]; rfl
      | range h => rw [intNumeral_iff.1 h]; rfl
      | optional h => rw [intNumeral_iff.1 h]; rfl
      | _ => rfl
    | lpm h => rw [intNumeral_iff.1 h]; rfl
  · rintro rfl
    have hi : ∀ w, IntNumeral w (intDec w) := fun w => intNumeral_iff.2 rfl
    cases t with
    | unknown => exact .right .unknown nofun
    | unsupported n => exact .right (.unsupported n) nofun
    | boolean => exact .right .bool nofun
    | arbitraryInt => exact .right .int nofun
    | fixedUnsigned w => exact .right (.bit (hi w)) nofun
    | exact w => exact .right (.exact (hi w)) nofun
    | ternary w => exact .right (.ternary (hi w)) nofun
    | lpm w => exact .lpm (hi w)
    | range w => exact .right (.range (hi w)) nofun
    | optionalMatch w => exact .right (.optional (hi w)) nofun
    | notSet => exact .right .notSet nofun

theorem reported (t : Ty) : PrintedName t (typeName t) := reported_iff.2 rfl

/-! ### The error is about a fault -/

theorem typeErrorM_bind {α β : Type} {x : Texts} {m : Str} {src : ConstraintSource} {a b : Loc} {f : α → MRes β} :
    ((typeErrorM x m src a b : MRes α) >>= f) = typeErrorM x m src a b := by
  unfold typeErrorM quotingErrorM
  cases quoteSub src a b <;> rfl

theorem isConn_iff {op : BinOp} : IsConn op ↔ op.isConn = true := by
  constructor
  · rintro ⟨o, h⟩
    have := h (.bool true) (.bool true)
    cases op <;> first | rfl | simp [binop] at this
  · cases op <;> intro h <;> first | exact ⟨_, fun _ _ => rfl⟩ | cases h

theorem isCmp_some {op : BinOp} (h : op.isCmp = true) : ∃ o, IsCmp op o ∧ (o.isOrder = true ↔ op ≠ .eq ∧ op ≠ .ne) := by
  cases op <;> first | exact ⟨_, fun _ _ => rfl, by simp [Cmp.isOrder]⟩ | cases h

def Blamed (x : Texts) (src : ConstraintSource) (sc : Scope) (e : Expr) (r : MRes Expr) : Prop :=
  (∃ e', r = .ok e' ∧ Typed (sigOf sc) e e'.ty ∧ e'.start = e.start ∧ e'.stop = e.stop) ∨
    ∃ y a b m, First (sigOf sc) e y ∧ Fault PrintedName sc.isAction (sigOf sc) y a b m ∧ r = typeErrorM x m src a b

theorem blame {x : Texts} {src : ConstraintSource} {sc : Scope} {e : Expr} {s : SExpr} (ha : abs e = some s) :
    Blamed x src sc e (inferAndCheckM x src sc e) := by
  induction e generalizing s with
  | notSet i => simp [abs] at ha
  | typeCast i e => simp [abs] at ha
  | boolConst i b => exact .inl ⟨_, rfl, ⟨_, rfl, .bool _⟩, rfl, rfl⟩
  | intConst i n =>
    refine .inl ⟨_, rfl, ⟨_, ha, ?_⟩, rfl, rfl⟩
    simp [abs] at ha; obtain ⟨z, _, rfl⟩ := ha
    exact .int _
  | key i n =>
    unfold inferAndCheckM
    cases sc with
    | action ps => exact .inr ⟨_, _, _, _, .self _, .keyInAction rfl, rfl⟩
    | table ks =>
      dsimp only
      cases hl : lookup n ks with
      | none => exact .inr ⟨_, _, _, _, .self _, .unknownKey rfl (by simp [sigOf, hl]), rfl⟩
      | some ki =>
        dsimp only
        have hk : (sigOf (.table ks)).key n = some ki.ty := by simp [sigOf, hl]
        by_cases hi : illegalType ki.ty = true
        · rw [if_pos hi]
          exact .inr ⟨_, _, _, _, .self _,
            .illegalKey rfl hk (fun h => by rw [illegalType_iff.2 h] at hi; cases hi) (reported _), rfl⟩
        · rw [if_neg hi]
          exact .inl ⟨_, rfl, ⟨_, rfl, .key hk (illegalType_iff.1 (show illegalType ki.ty = false by simpa using hi))⟩, rfl, rfl⟩
  | actionParam i n =>
    unfold inferAndCheckM
    cases sc with
    | table ps => exact .inr ⟨_, _, _, _, .self _, .paramInTable rfl, rfl⟩
    | action ks =>
      dsimp only
      cases hl : lookup n ks with
      | none => exact .inr ⟨_, _, _, _, .self _, .unknownParam rfl (by simp [sigOf, hl]), rfl⟩
      | some ki =>
        dsimp only
        have hk : (sigOf (.action ks)).param n = some ki.ty := by simp [sigOf, hl]
        by_cases hi : illegalType ki.ty = true
        · rw [if_pos hi]
          exact .inr ⟨_, _, _, _, .self _,
            .illegalParam rfl hk (fun h => by rw [illegalType_iff.2 h] at hi; cases hi) (reported _), rfl⟩
        · rw [if_neg hi]
          exact .inl ⟨_, rfl, ⟨_, rfl, .param hk (illegalType_iff.1 (show illegalType ki.ty = false by simpa using hi))⟩, rfl, rfl⟩
  | attr i n =>
    unfold inferAndCheckM getAttributeInfo
    by_cases hn : n = c!"priority"
    · rw [if_pos hn]
      subst hn
      exact .inl ⟨_, rfl, ⟨_, rfl, .priority⟩, rfl, rfl⟩
    · rw [if_neg hn]
      exact .inr ⟨_, _, _, _, .self _, .unknownAttr hn, rfl⟩
  | boolNeg i e ih =>
    unfold inferAndCheckM
    obtain ⟨u, hu⟩ : ∃ u, abs e = some u := by
      simp [abs] at ha; obtain ⟨u, h, _⟩ := ha; exact ⟨u, h⟩
    rcases ih hu with ⟨e', he, ht, h1, h2⟩ | ⟨y, a, b, m, hf, hx, he⟩
    · rw [he, MRes.ok_bind]
      by_cases hb : e'.ty = .boolean
      · rw [if_neg (by simp [hb])]
        obtain ⟨v, hv, ht⟩ := ht
        rw [hb] at ht
        exact .inl ⟨_, rfl, ⟨.not v, by simp [abs, hv], .not ht⟩, rfl, rfl⟩
      · rw [if_pos hb, h1, h2]
        exact .inr ⟨_, _, _, _, .self _, .notBool ht hb (reported _), rfl⟩
    · rw [he, typeErrorM_bind]
      exact .inr ⟨_, _, _, _, .boolNeg hf, hx, rfl⟩
  | arithNeg i e ih =>
    unfold inferAndCheckM
    obtain ⟨u, hu⟩ : ∃ u, abs e = some u := by
      simp [abs] at ha; obtain ⟨u, h, _⟩ := ha; exact ⟨u, h⟩
    rcases ih hu with ⟨e', he, ht, h1, h2⟩ | ⟨y, a, b, m, hf, hx, he⟩
    · rw [he, MRes.ok_bind]
      by_cases hb : e'.ty = .arbitraryInt
      · rw [if_neg (by simp [hb])]
        obtain ⟨v, hv, ht⟩ := ht
        rw [hb] at ht
        exact .inl ⟨_, rfl, ⟨.neg v, by simp [abs, hv], .neg ht⟩, rfl, rfl⟩
      · rw [if_pos hb, h1, h2]
        exact .inr ⟨_, _, _, _, .self _, .notInt ht hb (reported _), rfl⟩
    · rw [he, typeErrorM_bind]
      exact .inr ⟨_, _, _, _, .arithNeg hf, hx, rfl⟩
  | field i e f ih =>
    unfold inferAndCheckM
    obtain ⟨u, hu⟩ : ∃ u, abs e = some u := by
      simp [abs] at ha; obtain ⟨u, h, _⟩ := ha; exact ⟨u, h⟩
    rcases ih hu with ⟨e', he, ht, h1, h2⟩ | ⟨y, a, b, m, hf, hx, he⟩
    · rw [he, MRes.ok_bind]
      cases hft : fieldTypeOfCompositeType e'.ty f with
      | none =>
        refine .inr ⟨_, _, _, _, .self _, .noField ht (fun t h => ?_) (reported _), rfl⟩
        rw [fieldTy_iff.2 h] at hft
        cases hft
      | some t =>
        obtain ⟨v, hv, ht⟩ := ht
        exact .inl ⟨_, rfl, ⟨.field v f, by simp [abs, hv], .field ht (fieldTy_iff.1 hft)⟩, rfl, rfl⟩
    · rw [he, typeErrorM_bind]
      exact .inr ⟨_, _, _, _, .field hf, hx, rfl⟩
  | bin i op l r ihl ihr =>
    obtain ⟨u, v, hu, hv, hb⟩ : ∃ u v, abs l = some u ∧ abs r = some v ∧ binop op u v = some s := by
      simp only [abs] at ha
      cases hl : abs l with
      | none => rw [hl] at ha; cases ha
      | some u =>
        cases hr : abs r with
        | none => rw [hl, hr] at ha; cases ha
        | some v => rw [hl, hr] at ha; exact ⟨u, v, rfl, rfl, ha⟩
    unfold inferAndCheckM
    rcases ihl hu with ⟨l', he, htl, h1, h2⟩ | ⟨y, a, b, m, hf, hx, he⟩
    · rcases ihr hv with ⟨r', hr, htr, h3, h4⟩ | ⟨y, a, b, m, hf, hx, hr⟩
      · rw [he, MRes.ok_bind, hr, MRes.ok_bind]
        by_cases hc : op.isConn = true
        · have key : Blamed x src sc (.bin i op l r)
              (if l'.ty ≠ .boolean then
                typeErrorM x (c!"expected type bool, got " ++ typeName l'.ty) src l'.start l'.stop
              else if r'.ty ≠ .boolean then
                typeErrorM x (c!"expected type bool, got " ++ typeName r'.ty) src r'.start r'.stop
              else .ok (.bin (i.withTy .boolean) op l' r')) := by
            by_cases hlb : l'.ty = .boolean
            · rw [if_neg (by simp [hlb])]
              by_cases hrb : r'.ty = .boolean
              · rw [if_neg (by simp [hrb])]
                obtain ⟨o, ho⟩ := isConn_iff.2 hc
                obtain ⟨u, hu, htl⟩ := htl
                obtain ⟨v, hv, htr⟩ := htr
                rw [hlb] at htl
                rw [hrb] at htr
                exact .inl ⟨_, rfl, ⟨.conn o u v, by simp [abs, hu, hv, ho], .conn htl htr⟩, rfl, rfl⟩
              · rw [if_pos hrb, h3, h4]
                rw [hlb] at htl
                exact .inr ⟨_, _, _, _, .self _, .rightNotBool (isConn_iff.2 hc) htl htr hrb (reported _), rfl⟩
            · rw [if_pos hlb, h1, h2]
              exact .inr ⟨_, _, _, _, .self _, .leftNotBool (isConn_iff.2 hc) htl htr hlb (reported _), rfl⟩
          cases op <;> first | exact key | cases hc
        · have hcmp : op.isCmp = true := by
            rcases binop_cases hb with ⟨h, _⟩ | ⟨h, _⟩
            · exact absurd h hc
            · exact h
          obtain ⟨o, ho, hord⟩ := isCmp_some hcmp
          have key : Blamed x src sc (.bin i op l r)
              (unifyM x src l' r' >>= fun (t, l, r) =>
                if op ≠ .eq ∧ op ≠ .ne ∧ !typeHasOrdering t then
                  typeErrorM x (c!"operand type " ++ typeName t ++ c!" does not support ordered comparison") src
                    i.start i.stop
                else .ok (.bin (i.withTy .boolean) op l r)) := by
            unfold unifyM
            cases hj : leastUpperBound l'.ty r'.ty with
            | none =>
              dsimp only
              rw [typeErrorM_bind, h1, h4]
              refine .inr ⟨_, _, _, _, .self _, .incomparable ho htl htr (fun j h => ?_) (reported _) (reported _), rfl⟩
              rw [lub_iff.2 h] at hj
              cases hj
            | some t =>
              dsimp only
              rw [MRes.ok_bind]
              dsimp only
              have hjt := lub_iff.1 hj
              by_cases hd : op ≠ .eq ∧ op ≠ .ne ∧ !typeHasOrdering t
              · rw [if_pos hd]
                refine .inr ⟨_, _, _, _, .self _, .unordered ho htl htr hjt (hord.2 ⟨hd.1, hd.2.1⟩) (fun h => ?_)
                  (reported _), rfl⟩
                rw [isOrder_ordered.2 h] at hd
                simp at hd
              · rw [if_neg hd]
                obtain ⟨u, hu, htl⟩ := htl
                obtain ⟨v, hv, htr⟩ := htr
                refine .inl ⟨_, rfl, ⟨.cmp o u v, by simp [abs, hu, hv, ho u v], .cmp htl htr hjt fun h => ?_⟩, rfl, rfl⟩
                have hne := hord.1 h
                refine isOrder_ordered.1 ?_
                cases ht : typeHasOrdering t with
                | true => rfl
                | false => exact absurd ⟨hne.1, hne.2, by simp [ht]⟩ hd
          cases op <;> first | exact key | cases hcmp
      · rw [he, MRes.ok_bind, hr, typeErrorM_bind]
        exact .inr ⟨_, _, _, _, .right htl hf, hx, rfl⟩
    · rw [he, typeErrorM_bind]
      exact .inr ⟨_, _, _, _, .left hf, hx, rfl⟩

/-! ### There is at most one fault -/

theorem typed_unique {Γ : Sig} {e : Expr} {t u : Ty} (h : Typed Γ e t) (h' : Typed Γ e u) : t = u := by
  obtain ⟨s, hs, h⟩ := h
  obtain ⟨s', hs', h'⟩ := h'
  rw [hs] at hs'
  cases hs'
  exact hasTy_unique h h'

theorem fault_untyped {sc : Scope} {nm : Ty → Str → Prop} {e : Expr} {a b : Loc} {m : Str}
    (h : Fault nm sc.isAction (sigOf sc) e a b m) {t : Ty} : ¬ Typed (sigOf sc) e t := by
  rintro ⟨s, hs, ht⟩
  cases h with
  | keyInAction h =>
    cases hs; cases ht with
    | key hk _ => cases sc <;> simp [sigOf, Scope.isAction] at *
  | unknownKey _ h => cases hs; cases ht with | key hk _ => rw [h] at hk; cases hk
  | illegalKey _ h hn _ =>
    cases hs; cases ht with | key hk hs => rw [h] at hk; cases hk; exact hn hs
  | paramInTable h =>
    cases hs; cases ht with
    | param hk _ => cases sc <;> simp [sigOf, Scope.isAction] at *
  | unknownParam _ h => cases hs; cases ht with | param hk _ => rw [h] at hk; cases hk
  | illegalParam _ h hn _ =>
    cases hs; cases ht with | param hk hs => rw [h] at hk; cases hk; exact hn hs
  | unknownAttr h => cases hs; cases ht; exact h rfl
  | notBool he hn _ =>
    obtain ⟨v, hv, hev⟩ := he
    rw [abs, hv] at hs; cases hs
    cases ht with | not h => exact hn (hasTy_unique hev h)
  | notInt he hn _ =>
    obtain ⟨v, hv, hev⟩ := he
    rw [abs, hv] at hs; cases hs
    cases ht with | neg h => exact hn (hasTy_unique hev h)
  | leftNotBool hc hl hr hn _ =>
    obtain ⟨u, hu, hl⟩ := hl
    obtain ⟨v, hv, hr⟩ := hr
    obtain ⟨o, ho⟩ := hc
    simp only [abs, hu, hv, Option.bind_some, ho] at hs
    cases hs
    cases ht with | conn h _ => exact hn (hasTy_unique hl h)
  | rightNotBool hc hl hr hn _ =>
    obtain ⟨u, hu, hl⟩ := hl
    obtain ⟨v, hv, hr⟩ := hr
    obtain ⟨o, ho⟩ := hc
    simp only [abs, hu, hv, Option.bind_some, ho] at hs
    cases hs
    cases ht with | conn _ h => exact hn (hasTy_unique hr h)
  | incomparable hc hl hr hn _ _ =>
    obtain ⟨u, hu, hl⟩ := hl
    obtain ⟨v, hv, hr⟩ := hr
    simp only [abs, hu, hv, Option.bind_some, hc u v] at hs
    cases hs
    cases ht with
    | cmp h1 h2 h3 _ =>
      rw [hasTy_unique h1 hl, hasTy_unique h2 hr] at h3
      exact hn _ h3
  | unordered hc hl hr hj ho hn _ =>
    obtain ⟨u, hu, hl⟩ := hl
    obtain ⟨v, hv, hr⟩ := hr
    simp only [abs, hu, hv, Option.bind_some, hc u v] at hs
    cases hs
    cases ht with
    | cmp h1 h2 h3 h4 =>
      rw [hasTy_unique h1 hl, hasTy_unique h2 hr] at h3
      rw [isJoin_unique hj h3] at hn
      exact hn (h4 ho)
  | noField he hn _ =>
    obtain ⟨v, hv, hev⟩ := he
    rw [abs, hv] at hs; cases hs
    cases ht with
    | field h hf =>
      rw [hasTy_unique h hev] at hf
      exact hn _ hf

theorem fault_parts {sc : Scope} {nm : Ty → Str → Prop} {e y : Expr} {a b : Loc} {m : Str} {Γ : Sig}
    (h : Fault nm sc.isAction Γ e a b m) (hf : First Γ e y) : y = e ∨ ∃ z t, Typed Γ z t ∧ First Γ z y := by
  have mk : ∀ {z t}, First Γ z y → Typed Γ z t → y = e ∨ ∃ z t, Typed Γ z t ∧ First Γ z y :=
    fun h h' => .inr ⟨_, _, h', h⟩
  cases h <;> cases hf <;> first
    | exact .inl rfl
    | exact mk ‹First _ _ _› (by assumption)

theorem typed_part {Γ : Sig} {e y : Expr} (hf : First Γ e y) : ∀ {t}, Typed Γ e t → ∃ u, Typed Γ y u := by
  induction hf with
  | self x => exact fun h => ⟨_, h⟩
  | boolNeg _ ih =>
    rintro t ⟨s, hs, ht⟩
    simp only [abs, Option.map_eq_some_iff] at hs
    obtain ⟨u, hu, rfl⟩ := hs
    cases ht with | not h => exact ih ⟨_, hu, h⟩
  | arithNeg _ ih =>
    rintro t ⟨s, hs, ht⟩
    simp only [abs, Option.map_eq_some_iff] at hs
    obtain ⟨u, hu, rfl⟩ := hs
    cases ht with | neg h => exact ih ⟨_, hu, h⟩
  | field _ ih =>
    rintro t ⟨s, hs, ht⟩
    simp only [abs, Option.map_eq_some_iff] at hs
    obtain ⟨u, hu, rfl⟩ := hs
    cases ht with | field h _ => exact ih ⟨_, hu, h⟩
  | left _ ih =>
    rintro t ⟨s, hs, ht⟩
    simp only [abs, Option.bind_eq_some_iff] at hs
    obtain ⟨u, hu, v, hv, hb⟩ := hs
    rcases binop_cases hb with ⟨_, _, o, rfl, _⟩ | ⟨_, _, o, rfl, _⟩
    · cases ht with | conn h _ => exact ih ⟨_, hu, h⟩
    · cases ht with | cmp h _ _ _ => exact ih ⟨_, hu, h⟩
  | right _ _ ih =>
    rintro t ⟨s, hs, ht⟩
    simp only [abs, Option.bind_eq_some_iff] at hs
    obtain ⟨u, hu, v, hv, hb⟩ := hs
    rcases binop_cases hb with ⟨_, _, o, rfl, _⟩ | ⟨_, _, o, rfl, _⟩
    · cases ht with | conn _ h => exact ih ⟨_, hv, h⟩
    · cases ht with | cmp _ h _ _ => exact ih ⟨_, hv, h⟩

/-- There is at most one place to blame. -/
theorem first_unique {sc : Scope} {nm nm' : Ty → Str → Prop} {e y y' : Expr} {a b a' b' : Loc} {m m' : Str}
    (hf : First (sigOf sc) e y) (h : Fault nm sc.isAction (sigOf sc) y a b m)
    (hf' : First (sigOf sc) e y') (h' : Fault nm' sc.isAction (sigOf sc) y' a' b' m') : y = y' := by
  have no : ∀ {z : Expr} {t : Ty}, Typed (sigOf sc) z t → ∀ {w : Expr} {nm a b m}, First (sigOf sc) z w →
      Fault nm sc.isAction (sigOf sc) w a b m → False := by
    intro z t ht w nm a b m hw hx
    obtain ⟨u, hu⟩ := typed_part hw ht
    exact fault_untyped hx hu
  induction hf with
  | self x =>
    rcases fault_parts h hf' with e | ⟨z, t, ht, hz⟩
    · exact e.symm
    · exact (no ht hz h').elim
  | boolNeg hf ih =>
    cases hf' with
    | boolNeg hf' => exact ih h hf'
    | self => rcases fault_parts h' (First.boolNeg hf) with e | ⟨z, t, ht, hz⟩
              · exact e
              · exact (no ht hz h).elim
  | arithNeg hf ih =>
    cases hf' with
    | arithNeg hf' => exact ih h hf'
    | self => rcases fault_parts h' (First.arithNeg hf) with e | ⟨z, t, ht, hz⟩
              · exact e
              · exact (no ht hz h).elim
  | field hf ih =>
    cases hf' with
    | field hf' => exact ih h hf'
    | self => rcases fault_parts h' (First.field hf) with e | ⟨z, t, ht, hz⟩
              · exact e
              · exact (no ht hz h).elim
  | left hf ih =>
    cases hf' with
    | left hf' => exact ih h hf'
    | right ht _ => exact (no ht hf h).elim
    | self => rcases fault_parts h' (First.left hf) with e | ⟨z, t, ht, hz⟩
              · exact e
              · exact (no ht hz h).elim
  | right ht hf ih =>
    cases hf' with
    | left hf' => exact (no ht hf' h').elim
    | right _ hf' => exact ih h hf'
    | self => rcases fault_parts h' (First.right ht hf) with e | ⟨z, t, ht, hz⟩
              · exact e
              · exact (no ht hz h).elim

theorem reported_eq {t u : Ty} {s v : Str} (h : PrintedName t s) (h' : PrintedName u v) (e : t = u) : s = v := by
  rw [reported_iff.1 h, reported_iff.1 h', e]

theorem fault_unique {sc : Scope} {e : Expr} {a b a' b' : Loc} {m m' : Str}
    (h : Fault PrintedName sc.isAction (sigOf sc) e a b m) (h' : Fault PrintedName sc.isAction (sigOf sc) e a' b' m') :
    a = a' ∧ b = b' ∧ m = m' := by
  have conn_cmp : ∀ {op o}, IsConn op → IsCmp op o → False := by
    rintro op o ⟨o', h⟩ h'
    have := (h (.bool true) (.bool true)).symm.trans (h' _ _)
    cases this
  cases h with
  | keyInAction h =>
    cases h' with
    | keyInAction => exact ⟨rfl, rfl, rfl⟩
    | unknownKey h' | illegalKey h' => rw [h] at h'; cases h'
  | unknownKey h hk =>
    cases h' with
    | keyInAction h' => rw [h] at h'; cases h'
    | unknownKey => exact ⟨rfl, rfl, rfl⟩
    | illegalKey _ hk' => rw [hk] at hk'; cases hk'
  | illegalKey h hk _ hr =>
    cases h' with
    | keyInAction h' => rw [h] at h'; cases h'
    | unknownKey _ hk' => rw [hk] at hk'; cases hk'
    | illegalKey _ hk' _ hr' => rw [hk] at hk'; cases hk'; exact ⟨rfl, rfl, by rw [reported_eq hr hr' rfl]⟩
  | paramInTable h =>
    cases h' with
    | paramInTable => exact ⟨rfl, rfl, rfl⟩
    | unknownParam h' | illegalParam h' => rw [h] at h'; cases h'
  | unknownParam h hk =>
    cases h' with
    | paramInTable h' => rw [h] at h'; cases h'
    | unknownParam => exact ⟨rfl, rfl, rfl⟩
    | illegalParam _ hk' => rw [hk] at hk'; cases hk'
  | illegalParam h hk _ hr =>
    cases h' with
    | paramInTable h' => rw [h] at h'; cases h'
    | unknownParam _ hk' => rw [hk] at hk'; cases hk'
    | illegalParam _ hk' _ hr' => rw [hk] at hk'; cases hk'; exact ⟨rfl, rfl, by rw [reported_eq hr hr' rfl]⟩
  | unknownAttr => cases h'; exact ⟨rfl, rfl, rfl⟩
  | notBool ht _ hr =>
    cases h' with | notBool ht' _ hr' => exact ⟨rfl, rfl, by rw [reported_eq hr hr' (typed_unique ht ht')]⟩
  | notInt ht _ hr =>
    cases h' with | notInt ht' _ hr' => exact ⟨rfl, rfl, by rw [reported_eq hr hr' (typed_unique ht ht')]⟩
  | noField ht _ hr =>
    cases h' with | noField ht' _ hr' => exact ⟨rfl, rfl, by rw [reported_eq hr hr' (typed_unique ht ht')]⟩
  | leftNotBool hc ht _ hn hr =>
    cases h' with
    | leftNotBool _ ht' _ _ hr' => exact ⟨rfl, rfl, by rw [reported_eq hr hr' (typed_unique ht ht')]⟩
    | rightNotBool _ ht' => exact absurd (typed_unique ht ht') hn
    | incomparable h' => exact (conn_cmp hc h').elim
    | unordered h' => exact (conn_cmp hc h').elim
  | rightNotBool hc hl ht hn hr =>
    cases h' with
    | leftNotBool _ ht' _ hn' _ => exact absurd (typed_unique ht' hl) hn'
    | rightNotBool _ _ ht' _ hr' => exact ⟨rfl, rfl, by rw [reported_eq hr hr' (typed_unique ht ht')]⟩
    | incomparable h' => exact (conn_cmp hc h').elim
    | unordered h' => exact (conn_cmp hc h').elim
  | incomparable hc ht hu hn hr hs =>
    cases h' with
    | leftNotBool h' => exact (conn_cmp h' hc).elim
    | rightNotBool h' => exact (conn_cmp h' hc).elim
    | incomparable _ ht' hu' _ hr' hs' =>
      exact ⟨rfl, rfl, by rw [reported_eq hr hr' (typed_unique ht ht'), reported_eq hs hs' (typed_unique hu hu')]⟩
    | unordered _ ht' hu' hj =>
      rw [typed_unique ht' ht, typed_unique hu' hu] at hj
      exact absurd hj (hn _)
  | unordered hc ht hu hj _ _ hr =>
    cases h' with
    | leftNotBool h' => exact (conn_cmp h' hc).elim
    | rightNotBool h' => exact (conn_cmp h' hc).elim
    | incomparable _ ht' hu' hn =>
      rw [typed_unique ht ht', typed_unique hu hu'] at hj
      exact absurd hj (hn _)
    | unordered _ ht' hu' hj' _ _ hr' =>
      rw [typed_unique ht ht', typed_unique hu hu'] at hj
      exact ⟨rfl, rfl, by rw [reported_eq hr hr' (isJoin_unique hj hj')]⟩

/-- A fault is reported as such. -/
theorem blame_fault {x : Texts} {src : ConstraintSource} {sc : Scope} {e y : Expr} {s : SExpr} (ha : abs e = some s)
    {a b : Loc} {m : Str} (hf : First (sigOf sc) e y) (h : Fault PrintedName sc.isAction (sigOf sc) y a b m) :
    inferAndCheckM x src sc e = typeErrorM x m src a b := by
  rcases blame (x := x) (src := src) (sc := sc) ha with ⟨e', _, ht, _⟩ | ⟨y', a', b', m', hf', h', he⟩
  · obtain ⟨u, hu⟩ := typed_part hf ht
    exact (fault_untyped h hu).elim
  · have := first_unique hf h hf' h'
    subst this
    obtain ⟨rfl, rfl, rfl⟩ := fault_unique h h'
    exact he

/-- The ends of the fault are ends of nodes. -/
theorem fault_nodes {nm : Ty → Str → Prop} {act : Bool} {Γ : Sig} {e : Expr} {a b : Loc} {m : Str}
    (h : Fault nm act Γ e a b m) :
    ∃ y z, NodeOf y e ∧ NodeOf z e ∧ a = y.start ∧ b = z.stop ∧ (Nested e → LocLe a b) := by
  have one : ∀ {y : Expr}, NodeOf y e → ∃ v z, NodeOf v e ∧ NodeOf z e ∧ y.start = v.start ∧ y.stop = z.stop ∧
      (Nested e → LocLe y.start y.stop) := fun hy => ⟨_, _, hy, hy, rfl, rfl, fun hn => (nested_node hy hn).2.le⟩
  cases h with
  | notBool => exact one (.boolNeg (.self _))
  | notInt => exact one (.arithNeg (.self _))
  | leftNotBool => exact one (.left (.self _))
  | rightNotBool => exact one (.right (.self _))
  | @incomparable i op o l r =>
    refine ⟨_, _, .left (.self l), .right (.self r), rfl, rfl, fun hn => ?_⟩
    have h1 := (nested_node (.left (.self l)) hn).2
    have h2 := (nested_node (.right (.self r)) hn).2
    have h3 : LocLe l.stop r.start := hn.2.2.1
    unfold LocLt LocLe at *
    omega
  | _ => exact one (.self _)

theorem first_node {Γ : Sig} {e y : Expr} (h : First Γ e y) : ∀ {z}, NodeOf z y → NodeOf z e := by
  induction h with
  | self => exact fun h => h
  | boolNeg _ ih => exact fun h => .boolNeg (ih h)
  | arithNeg _ ih => exact fun h => .arithNeg (ih h)
  | field _ ih => exact fun h => .field (ih h)
  | left _ ih => exact fun h => .left (ih h)
  | right _ _ ih => exact fun h => .right (ih h)

/-- Quoting from the begin of a node of a parsed constraint to the end of another fails only by a crash, and only if that
spans lines. -/
theorem nodes_quoted {sys : Sys} {k : ConstraintKind} {src : ConstraintSource} {e u v : Expr}
    (hp : parseConstraint sys k src = .ok e) (hcr : CrLf src.str) (hset : src.loc.src ≠ .notSet)
    (hline : 0 ≤ src.loc.line) (hcol : 0 ≤ src.loc.col) (hu : NodeOf u e) (hv : NodeOf v e)
    (hle : Nested e → LocLe u.start v.stop) :
    (∀ q, quoteSub src u.start v.stop = .ok q ↔ Quotation src u.start v.stop q) ∧
      ((∃ q, quoteSub src u.start v.stop = .ok q) ∨
        (quoteSub src u.start v.stop = .crash ∧ u.start.line ≠ v.stop.line)) := by
  obtain ⟨toks, last, h1, h2, h3⟩ := parseConstraint_split.1 hp
  obtain ⟨toks', last', h4, h5, _, h6⟩ := lexed_ordered (tokenize_lexed src)
  rw [h1] at h4
  obtain ⟨rfl, _⟩ := List.append_inj' h4 rfl
  obtain ⟨h7, _, _⟩ := G_spans h3 h5
  obtain ⟨⟨t, ht, hts⟩, -⟩ := G_ends h3 u hu
  obtain ⟨-, w, hw, hws⟩ := G_ends h3 v hv
  have hty := hle h7
  have hpl := lexed_placed (tokenize_lexed src) hcr
  obtain ⟨p1, p2, p3, p4, p5, p6, p7⟩ := hpl t (by rw [h1]; simp [ht])
  obtain ⟨q1, q2, q3, q4, q5, q6, q7⟩ := hpl w (by rw [h1]; simp [hw])
  have hc := p4 hcol
  have hc' := q4 hcol
  rw [hts, hws] at hty ⊢
  refine ⟨fun q => quoteSub_iff p6 (by omega) hc (by omega), ?_⟩
  obtain ⟨x, z, hxz, hz, hn⟩ := p7 (fun he => by
    have := h5.1 t ht
    unfold LocLt at this
    rw [he] at this
    omega)
  rcases quoteSub_total src t.start w.stop with h | h | h
  · exact .inl h
  · exfalso
    have hq := quote_ne_err (stop := w.stop) hxz hz p6 hn hc .invalidArgument
    unfold quoteSub at h
    rw [if_neg (by simp [haveSameSource, p1, q2])] at h
    rcases explain_total t.start w.stop with ⟨⟨x, hx⟩, _⟩ | ⟨_, hx⟩
    · rw [hx] at h
      change (quote src t.start w.stop >>= fun q => Res.ok (x ++ q)) = _ at h
      rcases quote_total src t.start w.stop with ⟨q, hq'⟩ | hq' | hq'
      · rw [hq'] at h; cases h
      · exact hq hq'
      · rw [hq'] at h; cases h
    · rw [p1] at hx; exact hset hx
  · refine .inr ⟨h, fun hl => quoteSub_ne_crash hl.symm hc ?_ h⟩
    unfold LocLe at hty
    omega

/-- Quoting the interval of a fault of a parsed constraint fails only by a crash, and only if it spans lines. -/
theorem fault_quoted {sys : Sys} {k : ConstraintKind} {src : ConstraintSource} {e y : Expr} {Γ : Sig}
    {nm : Ty → Str → Prop} {act : Bool} {a b : Loc} {m : Str} (hp : parseConstraint sys k src = .ok e)
    (hcr : CrLf src.str) (hset : src.loc.src ≠ .notSet) (hline : 0 ≤ src.loc.line) (hcol : 0 ≤ src.loc.col)
    (hf : First Γ e y) (h : Fault nm act Γ y a b m) :
    (∀ q, quoteSub src a b = .ok q ↔ Quotation src a b q) ∧
      ((∃ q, quoteSub src a b = .ok q) ∨ (quoteSub src a b = .crash ∧ a.line ≠ b.line)) := by
  obtain ⟨u, v, hu, hv, rfl, rfl, hle⟩ := fault_nodes h
  exact nodes_quoted hp hcr hset hline hcol (first_node hf hu) (first_node hf hv) fun hn =>
    hle (nested_node (first_node hf (.self _)) hn).1

end P4C
