import Verif.Proofs.EvalPure
import Verif.Proofs.Numerals

/-
Evaluation of type-checked constraints against the meaning of the language.
-/

namespace P4C

open Spec

theorem rtError_ne_ok {α : Type} {ctx : EvalCtx} {e : Expr} {x : α} : rtError ctx e = .ok x ↔ False := by
  unfold rtError; exact runtimeTypeError_ne_ok

theorem valueMatchesTy_iff {t : Ty} {v : Value} : valueMatchesTy t v = true ↔ HasShape t v := by
  constructor
  · intro h
    cases t <;> cases v <;> simp [valueMatchesTy] at h <;> constructor
  · intro h
    cases h <;> rfl

theorem chkP_ok {ctx : EvalCtx} {e : Expr} {r : Res Value} {v : Value} :
    chkP ctx e r = .ok v ↔ r = .ok v ∧ HasShape e.ty v := by
  unfold chkP
  rw [Res.bind_eq_ok]
  constructor
  · rintro ⟨w, rfl, h⟩
    split at h
    · rename_i hs
      cases h
      exact ⟨rfl, valueMatchesTy_iff.1 hs⟩
    · simp [rtError_ne_ok] at h
  · rintro ⟨rfl, h⟩
    exact ⟨v, rfl, by simp [valueMatchesTy_iff.2 h]⟩

theorem toBoolP_ok {ctx : EvalCtx} {e : Expr} {r : Res Value} {b : Bool} :
    toBoolP ctx e r = .ok b ↔ r = .ok (.bool b) := by
  unfold toBoolP
  rw [Res.bind_eq_ok]
  constructor
  · rintro ⟨w, rfl, h⟩
    cases w <;> simp [rtError_ne_ok] at h
    subst h; rfl
  · rintro rfl
    exact ⟨_, rfl, rfl⟩

theorem toIntP_ok {ctx : EvalCtx} {e : Expr} {r : Res Value} {z : Int} :
    toIntP ctx e r = .ok z ↔ r = .ok (.int z) := by
  unfold toIntP
  rw [Res.bind_eq_ok]
  constructor
  · rintro ⟨w, rfl, h⟩
    cases w <;> simp [rtError_ne_ok] at h
    subst h; rfl
  · rintro rfl
    exact ⟨_, rfl, rfl⟩

theorem evalP_shape {ctx : EvalCtx} {e : Expr} {v : Value} (h : evalP ctx e = .ok v) : HasShape e.ty v := by
  cases e <;> simp only [evalP, chkP_ok] at h <;> exact h.2

theorem tmod_fix (z d : Int) (hd : 0 < d) : (if z.tmod d < 0 then z.tmod d + d else z.tmod d) = z % d := by
  rw [Int.tmod_eq_emod]
  have h1 := Int.emod_nonneg z (by omega : d ≠ 0)
  have h2 := Int.emod_lt_of_pos z hd
  have h3 : (d.natAbs : Int) = d := Int.natAbs_of_nonneg (by omega)
  split <;> split <;> omega

theorem pow_pos' (n : Nat) : (0 : Int) < 2 ^ n := Int.pow_pos (by decide)

theorem convert_shape {a t : Ty} {v : Value} (h : CastsTo a t) (hv : HasShape a v) :
    HasShape t (convert a t v) := by
  unfold convert
  rw [castsTo_iff] at h
  split
  · rename_i e; subst e; exact hv
  · rename_i hne
    rcases h with h | h
    · contradiction
    · cases hv <;> cases t <;> simp [strictlyAbove, typeBitwidth] at h <;>
        simp [exactMatch] <;> constructor

theorem convert_refl (a : Ty) (v : Value) : convert a a v = v := by simp [convert]

theorem evalP_cast_inv {ctx : EvalCtx} {e : Expr} {t : Ty} {w : Value}
    (h : evalP ctx (castTransitivelyTo e t) = .ok w) : ∃ v, evalP ctx e = .ok v := by
  have hw : ∀ e t w, evalP ctx (wrapWithCast e t) = .ok w → ∃ v, evalP ctx e = .ok v := by
    intro e t w h
    simp only [wrapWithCast, evalP, chkP_ok, Res.bind_eq_ok] at h
    obtain ⟨⟨v', h, _⟩, _⟩ := h
    exact ⟨_, h⟩
  have hi : ∀ w, evalP ctx (castIntStep e t) = .ok w → ∃ v, evalP ctx e = .ok v := by
    intro w h
    unfold castIntStep at h
    split at h
    · exact hw _ _ _ h
    · exact ⟨_, h⟩
  unfold castTransitivelyTo at h
  dsimp only at h
  split at h
  · obtain ⟨v, h⟩ := hw _ _ _ h
    exact hi _ h
  · exact hi _ h

theorem typeCast_ty (i : Info) (e : Expr) : (Expr.typeCast i e).ty = i.ty := rfl

theorem evalP_cast {ctx : EvalCtx} {e : Expr} {t : Ty} {v : Value} (hc : CastsTo e.ty t)
    (hn : NonNeg t) (h : evalP ctx e = .ok v) :
    evalP ctx (castTransitivelyTo e t) = .ok (convert e.ty t v) := by
  have hv := evalP_shape h
  rw [castsTo_iff] at hc
  rcases hc with hc | hc
  · subst hc
    simp [castTransitivelyTo, castIntStep, strictlyAbove_irrefl, convert_refl, h]
  · have hne : e.ty ≠ t := by
      intro he; rw [he, strictlyAbove_irrefl] at hc; cases hc
    unfold castTransitivelyTo castIntStep convert
    rw [if_neg hne]
    generalize he : e.ty = a at *
    cases t <;> cases a <;> simp [strictlyAbove, typeBitwidth] at hc
    all_goals
      simp only [NonNeg] at hn
      cases hv
      rename_i w z
      try subst hc
    all_goals
      have hsh : ∀ w : Int, 0 ≤ w → shl1 w = .ok (2 ^ w.toNat) := by
        intro w hw; unfold shl1; rw [if_neg (by omega)]
      simp [strictlyAbove, typeBitwidth, wrapWithCast, evalP, chkP, h, castValue, typeCast_ty, he,
        isFixedUnsigned, valueMatchesTy, hsh _ hn, tmod_fix _ _ (pow_pos' _), exactMatch]

theorem hasTy_nonneg {Γ : Sig} {s : SExpr} {t : Ty} (hw : WidthsOk Γ) (h : HasTy Γ s t) : NonNeg t := by
  induction h with
  | key h _ => exact hw.key _ _ h
  | param h _ => exact hw.param _ _ h
  | field _ hf ih => cases hf <;> simp_all [NonNeg]
  | _ => simp [NonNeg]

theorem isJoin_cases {a b t : Ty} (h : IsJoin a b t) : t = a ∨ t = b := by
  rcases common_upper h.1 h.2.1 with rfl | e | e
  · exact .inl (isJoin_unique h ⟨.refl _, .refl _, fun _ h _ => h⟩)
  · exact .inl (isJoin_unique h ⟨.refl _, castsTo_iff.2 (.inr e), fun _ h _ => h⟩)
  · exact .inr (isJoin_unique h ⟨castsTo_iff.2 (.inr e), .refl _, fun _ _ h => h⟩)

theorem isJoin_nonneg {a b t : Ty} (h : IsJoin a b t) (ha : NonNeg a) (hb : NonNeg b) : NonNeg t := by
  rcases isJoin_cases h with rfl | rfl <;> assumption

theorem fieldVal_exists {a t : Ty} {f : Str} {v : Value} (hf : FieldTy a f t) (hv : HasShape a v) :
    ∃ z, FieldVal v f z ∧ evalFieldAccess f v = some (.int z) ∧ HasShape t (.int z) := by
  cases hf <;> cases hv <;> exact ⟨_, by constructor, by simp [evalFieldAccess], by constructor⟩

theorem orderKey_ordered {t : Ty} {v : Value} (h : Ordered t) (hv : HasShape t v) :
    ∃ z, orderKey v = some z := by
  cases h <;> cases hv <;> exact ⟨_, rfl⟩

theorem compare_exists {o : Cmp} {t : Ty} {v w : Value} (ho : o.isOrder = true → Ordered t)
    (hv : HasShape t v) (hw : HasShape t w) : ∃ c, compareVals o v w = some c := by
  cases o
  case eq | ne => exact ⟨_, rfl⟩
  all_goals
    obtain ⟨x, hx⟩ := orderKey_ordered (ho rfl) hv
    obtain ⟨y, hy⟩ := orderKey_ordered (ho rfl) hw
    simp [compareVals, hx, hy]

theorem means_hasTy {Γ : Sig} {ρ : Env} {s : SExpr} {t : Ty} {v : Value} (h : Means Γ ρ s t v) :
    ∀ u, HasTy Γ s u → u = t := by
  induction h with
  | bool | int | priority => intro u hu; cases hu; rfl
  | key hk _ => intro u hu; cases hu with | key h _ => rw [hk] at h; exact (Option.some.inj h).symm
  | param hk _ => intro u hu; cases hu with | param h _ => rw [hk] at h; exact (Option.some.inj h).symm
  | not | neg | conn | cmp => intro u hu; cases hu; rfl
  | field _ hf _ ih =>
    intro u hu
    cases hu with
    | field h hf' => rw [ih _ h] at hf'; exact fieldTy_unique hf' hf

theorem fieldVal_unique {v : Value} {f : Str} {x y : Int} (h : FieldVal v f x) (h' : FieldVal v f y) :
    x = y := by
  have hx : ∀ z, FieldVal v f z → evalFieldAccess f v = some (.int z) := by
    intro z hz; cases hz <;> simp [evalFieldAccess]
  have := hx _ h
  rw [hx _ h'] at this
  simpa using this.symm

theorem means_unique {Γ : Sig} {ρ : Env} {s : SExpr} {t u : Ty} {v w : Value} (h : Means Γ ρ s t v)
    (h' : Means Γ ρ s u w) : t = u ∧ v = w := by
  induction h generalizing u w with
  | bool | int => cases h'; simp
  | priority hp =>
    cases h' with | priority hp' => rw [hp] at hp'; cases hp'; simp
  | key hk hv =>
    cases h' with
    | key hk' hv' => rw [hk] at hk'; rw [hv] at hv'; cases hk'; cases hv'; simp
  | param hk hv =>
    cases h' with
    | param hk' hv' => rw [hk] at hk'; rw [hv] at hv'; cases hk'; cases hv'; simp
  | not _ ih => cases h' with | not h => have := ih h; simp_all
  | neg _ ih => cases h' with | neg h => have := ih h; simp_all
  | conn _ _ ihl ihr =>
    cases h' with
    | conn hl hr =>
      have h1 := ihl hl
      have h2 := ihr hr
      simp at h1 h2
      subst h1; subst h2; simp
  | cmp _ _ hj hc ihl ihr =>
    cases h' with
    | cmp hl hr hj' hc' =>
      obtain ⟨rfl, rfl⟩ := ihl hl
      obtain ⟨rfl, rfl⟩ := ihr hr
      cases isJoin_unique hj hj'
      rw [hc] at hc'
      cases hc'
      simp
  | field _ hf hv ih =>
    cases h' with
    | field h hf' hv' =>
      obtain ⟨rfl, rfl⟩ := ih h
      cases fieldTy_unique hf hf'
      cases fieldVal_unique hv hv'
      simp

/-- Evaluation of a comparison whose operands have been evaluated. -/
theorem evalP_cmp {ctx : EvalCtx} {i : Info} {op : BinOp} {o : Cmp} {l r : Expr} {t : Ty} {v w : Value}
    (hi : i.ty = .boolean)
    (hop : op = (match o with
        | .eq => .eq | .ne => .ne | .lt => .lt | .le => .le | .gt => .gt | .ge => .ge))
    (hl : evalP ctx l = .ok v) (hr : evalP ctx r = .ok w) (hv : HasShape t v) (hw : HasShape t w)
    (ho : o.isOrder = true → Ordered t) :
    (∀ x, evalP ctx (.bin i op l r) = .ok x → ∃ c, compareVals o v w = some c ∧ x = .bool c) ∧
    ((o.isOrder = true → ∀ n, t ≠ .exact n) →
      ∃ c, compareVals o v w = some c ∧ evalP ctx (.bin i op l r) = .ok (.bool c)) := by
  have hty : ∀ b, HasShape (Expr.bin i op l r).ty (.bool b) := by
    intro b; show HasShape i.ty _; rw [hi]; constructor
  cases o <;> subst hop <;> simp only [evalP, chkP_ok, hl, hr, Res.ok_bind]
  case eq | ne =>
    refine ⟨?_, ?_⟩
    · rintro x ⟨h, _⟩
      refine ⟨_, rfl, ?_⟩
      cases h
      simp
    · intro _
      refine ⟨_, rfl, ?_, hty _⟩
      simp
  all_goals
    refine ⟨?_, ?_⟩
    · rintro x ⟨h, _⟩
      cases hv <;> cases hw <;> simp [toIntP, rtError_ne_ok, Res.bind_eq_ok] at h
      all_goals
        refine ⟨_, rfl, ?_⟩
        subst h
        simp
    · intro hne
      have ho := ho rfl
      have hne := hne rfl
      cases ho <;> cases hv <;> cases hw <;> simp at hne
      all_goals
        refine ⟨_, rfl, ?_, hty _⟩
        simp [toIntP]

/-- Type-checked constraints mean something of every consistent entry, evaluation computes nothing else,
and it succeeds unless an ordered comparison is made at an `exact` type. -/
theorem eval_means {src : ConstraintSource} {sc : Scope} {ctx : EvalCtx} {e e' : Expr} {s : SExpr}
    (hc : Consistent (sigOf sc) (envOf ctx)) (hw : WidthsOk (sigOf sc))
    (hp : AttrFree s ∨ (envOf ctx).priority ≠ none)
    (h : inferAndCheck src sc e = .ok e') (ha : abs e = some s) :
    ∃ v, Means (sigOf sc) (envOf ctx) s e'.ty v ∧ HasShape e'.ty v ∧
      (∀ w, evalP ctx e' = .ok w → w = v) ∧ (NoOrderedExact (sigOf sc) s → evalP ctx e' = .ok v) := by
  induction e generalizing e' s with
  | notSet i => simp [abs] at ha
  | typeCast i e => simp [abs] at ha
  | boolConst i b =>
    simp [abs] at ha; subst ha; simp [inferAndCheck] at h; subst h
    refine ⟨.bool b, .bool _, .bool _, ?_, ?_⟩
    · intro w hw; simp only [evalP, chkP_ok] at hw; exact (Res.ok.inj hw.1).symm
    · intro _; simp only [evalP, chkP_ok]; exact ⟨trivial, .bool _⟩
  | intConst i n =>
    simp [abs] at ha; obtain ⟨z, hz, rfl⟩ := ha; simp [inferAndCheck] at h; subst h
    refine ⟨.int z, .int _, .int _, ?_, ?_⟩
    · intro w hw
      simp only [evalP, chkP_ok, setStr_decimal hz] at hw
      exact (Res.ok.inj hw.1).symm
    · intro _; simp only [evalP, chkP_ok, setStr_decimal hz]; exact ⟨trivial, .int _⟩
  | key i n =>
    have hty := infer_sound h ha
    simp [abs] at ha; subst ha
    cases hty with
    | key hk hs =>
      obtain ⟨v, hv, hsh⟩ := hc.key _ _ hk hs
      refine ⟨v, .key hk hv, hsh, ?_⟩
      have he' : ∃ i', e' = .key i' n := by
        cases sc with
        | action => simp [sigOf] at hk
        | table ks =>
          simp only [inferAndCheck] at h
          split at h
          · simp [quotingError_ne_ok] at h
          · split at h
            · simp [quotingError_ne_ok] at h
            · exact ⟨_, (Res.ok.inj h).symm⟩
      obtain ⟨i', rfl⟩ := he'
      have hev : evalP ctx (.key i' n) = .ok v := by
        cases hcv : ctx.vals with
        | action a => simp [envOf, hcv] at hv
        | table t =>
          simp only [envOf, hcv] at hv
          simp only [evalP, chkP_ok, hcv, hv]
          exact ⟨trivial, hsh⟩
      refine ⟨?_, fun _ => hev⟩
      intro w hw; rw [hev] at hw; exact (Res.ok.inj hw).symm
  | actionParam i n =>
    have hty := infer_sound h ha
    simp [abs] at ha; subst ha
    cases hty with
    | param hk hs =>
      obtain ⟨v, hv, hsh⟩ := hc.param _ _ hk hs
      refine ⟨.int v, .param hk hv, hsh, ?_⟩
      have he' : ∃ i', e' = .actionParam i' n := by
        cases sc with
        | table => simp [sigOf] at hk
        | action ks =>
          simp only [inferAndCheck] at h
          split at h
          · simp [quotingError_ne_ok] at h
          · split at h
            · simp [quotingError_ne_ok] at h
            · exact ⟨_, (Res.ok.inj h).symm⟩
      obtain ⟨i', rfl⟩ := he'
      have hev : evalP ctx (.actionParam i' n) = .ok (.int v) := by
        cases hcv : ctx.vals with
        | table a => simp [envOf, hcv] at hv
        | action t =>
          simp only [envOf, hcv] at hv
          simp only [evalP, chkP_ok, hcv, hv]
          exact ⟨trivial, hsh⟩
      refine ⟨?_, fun _ => hev⟩
      intro w hw; rw [hev] at hw; exact (Res.ok.inj hw).symm
  | attr i n =>
    have hty := infer_sound h ha
    simp [abs] at ha; subst ha
    generalize ht : e'.ty = t at hty
    cases hty with
    | priority =>
      simp [inferAndCheck, getAttributeInfo, illegalType] at h
      subst h
      cases hcv : ctx.vals with
      | action a => simp [envOf, hcv, AttrFree] at hp
      | table t =>
        refine ⟨.int t.priority, .priority (by simp [envOf, hcv]), .int _, ?_, ?_⟩
        · intro w hw
          simp only [evalP, chkP_ok, hcv, if_true] at hw
          exact (Res.ok.inj hw.1).symm
        · intro _
          simp only [evalP, chkP_ok, hcv, if_true]
          exact ⟨trivial, .int _⟩
  | boolNeg i e ih =>
    simp [abs] at ha; obtain ⟨s', ha, rfl⟩ := ha
    simp only [inferAndCheck, Res.bind_eq_ok] at h
    obtain ⟨e1, h1, h⟩ := h
    split at h
    · simp [quotingError_ne_ok] at h
    rename_i ht
    cases h
    simp only [ne_eq, Decidable.not_not] at ht
    obtain ⟨v, hm, hsh, hs, hg⟩ := ih (s := s') hp h1 ha
    rw [ht] at hm hsh
    cases hsh with | bool b =>
    refine ⟨.bool (!b), .not hm, .bool _, ?_, ?_⟩
    · intro w hw
      simp only [evalP, chkP_ok, Res.bind_eq_ok, toBoolP_ok] at hw
      obtain ⟨⟨b', hb', hw⟩, _⟩ := hw
      cases hs _ hb'
      exact (Res.ok.inj hw).symm
    · intro hno
      simp only [evalP, chkP_ok, Res.bind_eq_ok, toBoolP_ok]
      exact ⟨⟨b, hg hno, rfl⟩, .bool _⟩
  | arithNeg i e ih =>
    simp [abs] at ha; obtain ⟨s', ha, rfl⟩ := ha
    simp only [inferAndCheck, Res.bind_eq_ok] at h
    obtain ⟨e1, h1, h⟩ := h
    split at h
    · simp [quotingError_ne_ok] at h
    rename_i ht
    cases h
    simp only [ne_eq, Decidable.not_not] at ht
    obtain ⟨v, hm, hsh, hs, hg⟩ := ih (s := s') hp h1 ha
    rw [ht] at hm hsh
    cases hsh with | int z =>
    refine ⟨.int (-z), .neg hm, .int _, ?_, ?_⟩
    · intro w hw
      simp only [evalP, chkP_ok, Res.bind_eq_ok, toIntP_ok] at hw
      obtain ⟨⟨b', hb', hw⟩, _⟩ := hw
      cases hs _ hb'
      exact (Res.ok.inj hw).symm
    · intro hno
      simp only [evalP, chkP_ok, Res.bind_eq_ok, toIntP_ok]
      exact ⟨⟨z, hg hno, rfl⟩, .int _⟩
  | field i e f ih =>
    simp [abs] at ha; obtain ⟨s', ha, rfl⟩ := ha
    simp only [inferAndCheck, Res.bind_eq_ok] at h
    obtain ⟨e1, h1, h⟩ := h
    split at h
    · simp [quotingError_ne_ok] at h
    rename_i t ht
    cases h
    obtain ⟨v, hm, hsh, hs, hg⟩ := ih (s := s') hp h1 ha
    obtain ⟨z, hz, hz', hzs⟩ := fieldVal_exists (fieldTy_iff.1 ht) hsh
    refine ⟨.int z, .field hm (fieldTy_iff.1 ht) hz, hzs, ?_, ?_⟩
    · intro w hw
      simp only [evalP, chkP_ok, Res.bind_eq_ok] at hw
      obtain ⟨⟨v', hv', hw⟩, _⟩ := hw
      cases hs _ hv'
      rw [hz'] at hw
      exact (Res.ok.inj hw).symm
    · intro hno
      simp only [evalP, chkP_ok, Res.bind_eq_ok]
      exact ⟨⟨v, hg hno, by rw [hz']⟩, hzs⟩
  | bin i op l r ihl ihr =>
    simp only [abs, Option.bind_eq_some_iff] at ha
    obtain ⟨sl, hsl, sr, hsr, ha⟩ := ha
    rw [infer_bin] at h
    obtain ⟨l', r', hl, hr, h⟩ := h
    have htl := infer_sound hl hsl
    have htr := infer_sound hr hsr
    rcases binop_cases ha with ⟨h1, h2, o, rfl, hop⟩ | ⟨h1, h2, o, rfl, ho, hop⟩
    · simp [h1, h2] at h
      obtain ⟨tl, tr, rfl⟩ := h
      have hpl : AttrFree sl ∨ (envOf ctx).priority ≠ none := hp.imp_left (·.1)
      have hpr : AttrFree sr ∨ (envOf ctx).priority ≠ none := hp.imp_left (·.2)
      obtain ⟨vl, hml, hshl, hsl', hgl⟩ := ihl hpl hl hsl
      obtain ⟨vr, hmr, hshr, hsr', hgr⟩ := ihr hpr hr hsr
      rw [tl] at hml hshl
      rw [tr] at hmr hshr
      cases hshl with | bool a =>
      cases hshr with | bool b =>
      refine ⟨.bool (o.apply a b), .conn hml hmr, .bool _, ?_, ?_⟩
      · intro w hw
        simp only [evalP, chkP_ok] at hw
        obtain ⟨hw, _⟩ := hw
        cases o <;> subst hop <;> simp only [Res.bind_eq_ok, toBoolP_ok] at hw <;>
          obtain ⟨lb, hlb, hw⟩ := hw <;> cases hsl' _ hlb <;> cases a <;>
          simp only [Bool.false_eq_true, if_true, if_false, Res.bind_eq_ok, toBoolP_ok] at hw <;>
          first
          | (cases hw; simp [Conn.apply]; done)
          | (obtain ⟨rb, hrb, hw⟩ := hw; cases hsr' _ hrb; cases hw; simp [Conn.apply])
      · intro hno
        have hl2 := hgl hno.1
        have hr2 := hgr hno.2
        simp only [evalP, chkP_ok]
        refine ⟨?_, .bool _⟩
        cases o <;> subst hop <;> simp only [hl2, hr2, toBoolP, Res.ok_bind] <;> cases a <;>
          simp [Conn.apply]
    · simp [h1, h2] at h
      obtain ⟨t, hj, hord, rfl⟩ := h
      have hpl : AttrFree sl ∨ (envOf ctx).priority ≠ none := hp.imp_left (·.1)
      have hpr : AttrFree sr ∨ (envOf ctx).priority ≠ none := hp.imp_left (·.2)
      obtain ⟨vl, hml, hshl, hsl', hgl⟩ := ihl hpl hl hsl
      obtain ⟨vr, hmr, hshr, hsr', hgr⟩ := ihr hpr hr hsr
      have hnn := isJoin_nonneg hj (hasTy_nonneg hw htl) (hasTy_nonneg hw htr)
      have hvl := convert_shape hj.1 hshl
      have hvr := convert_shape hj.2.1 hshr
      rw [ho] at hord
      obtain ⟨c, hcmp⟩ := compare_exists hord hvl hvr
      refine ⟨.bool c, .cmp hml hmr hj hcmp, .bool _, ?_, ?_⟩
      · intro w hw
        have hops : ∃ x y, evalP ctx (castTransitivelyTo l' t) = .ok x ∧
            evalP ctx (castTransitivelyTo r' t) = .ok y := by
          have := hw
          simp only [evalP, chkP_ok] at this
          obtain ⟨this, _⟩ := this
          cases o <;> subst hop <;> simp only [Res.bind_eq_ok, toIntP_ok] at this <;>
            obtain ⟨x, hx, y, hy, _⟩ := this <;> exact ⟨_, _, hx, hy⟩
        obtain ⟨x, y, hx, hy⟩ := hops
        obtain ⟨x', hx'⟩ := evalP_cast_inv hx
        obtain ⟨y', hy'⟩ := evalP_cast_inv hy
        cases hsl' _ hx'
        cases hsr' _ hy'
        have h3 := (evalP_cmp (i := i.withTy .boolean) rfl hop (evalP_cast hj.1 hnn hx')
          (evalP_cast hj.2.1 hnn hy') hvl hvr hord).1 w hw
        obtain ⟨c', hc', rfl⟩ := h3
        rw [hcmp] at hc'
        cases hc'
        rfl
      · intro hno
        have hx' := hgl hno.1
        have hy' := hgr hno.2.1
        have h3 := (evalP_cmp (i := i.withTy .boolean) rfl hop (evalP_cast hj.1 hnn hx')
          (evalP_cast hj.2.1 hnn hy') hvl hvr hord).2 ?_
        · obtain ⟨c', hc', h3⟩ := h3
          rw [hcmp] at hc'
          cases hc'
          exact h3
        · intro hio n hn
          subst hn
          have := hno.2.2 hio n
          rcases isJoin_cases hj with he | he
          · exact this.1 (he ▸ htl)
          · exact this.2 (he ▸ htr)

end P4C
