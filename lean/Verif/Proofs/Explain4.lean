import Verif.Proofs.Explain3
/-!
# Caches, ties, and the listing of relevant keys
-/
namespace P4C
open Spec

/-! ### Caches -/

theorem agrees_fst {α : Type} {P : Cache → Prop} {a : Res α} {x : Res (α × Cache)} (h : Agrees P a x) :
    Prod.fst <$> x = a ∧ ∀ v c, x = .ok (v, c) → P c := by
  cases a with
  | ok v =>
    obtain ⟨c, rfl, hc⟩ := h
    exact ⟨rfl, fun v c h => by cases h; exact hc⟩
  | _ =>
    unfold Agrees at h
    subst h
    exact ⟨rfl, nofun⟩

theorem agreesS_fst {α σ : Type} {P : σ → Prop} {a : Res α} {x : Res (α × σ)} (h : AgreesS P a x) :
    Prod.fst <$> x = a ∧ ∀ v c, x = .ok (v, c) → P c := by
  cases a with
  | ok v =>
    obtain ⟨c, rfl, hc⟩ := h
    exact ⟨rfl, fun v c h => by cases h; exact hc⟩
  | _ =>
    unfold AgreesS at h
    subst h
    exact ⟨rfl, nofun⟩

theorem noneOk (ctx : EvalCtx) (root : Expr) : CacheOk ctx root none ∧ SameKind none none :=
  ⟨fun m hm => (Option.some_ne_none m hm.symm).elim, rfl⟩

theorem eval_cache {ctx : EvalCtx} {root e : Expr} {p : Path} {m : EvalCache} (hp : nodeAt root p = some e)
    (hm : CorrectValues ctx root m) :
    Prod.fst <$> eval ctx e p (some m) = Prod.fst <$> eval ctx e [] none ∧
    ∀ v c, eval ctx e p (some m) = .ok (v, c) → ∃ m', c = some m' ∧ CorrectValues ctx root m' := by
  have h1 := agrees_fst (eval_agrees (some m) ctx root e p (some m) (sub_nodeAt.2 hp) ⟨correct_cacheOk.1 hm, rfl⟩)
  have h2 := agrees_fst (eval_agrees none ctx e e [] none .root (noneOk ctx e))
  refine ⟨h1.1.trans h2.1.symm, fun v c h => ?_⟩
  obtain ⟨h3, h4⟩ := h1.2 v c h
  cases c with
  | none => cases h4
  | some m' => exact ⟨m', rfl, correct_cacheOk.2 h3⟩

theorem evalToBool_cache {ctx : EvalCtx} {root e : Expr} {p : Path} {m : EvalCache} (hp : nodeAt root p = some e)
    (hm : CorrectValues ctx root m) :
    Prod.fst <$> evalToBool ctx e p (some m) = Prod.fst <$> evalToBool ctx e [] none ∧
    ∀ v c, evalToBool ctx e p (some m) = .ok (v, c) → ∃ m', c = some m' ∧ CorrectValues ctx root m' := by
  have h1 := agrees_fst (evalToBool_agrees (c₀ := some m) (ctx := ctx) (c := some m) (sub_nodeAt.2 hp)
    ⟨correct_cacheOk.1 hm, rfl⟩)
  have h2 := agrees_fst (evalToBool_agrees (c₀ := none) (ctx := ctx) (root := e) (e := e) (p := []) (c := none) .root
    (noneOk ctx e))
  refine ⟨h1.1.trans h2.1.symm, fun v c h => ?_⟩
  obtain ⟨h3, h4⟩ := h1.2 v c h
  cases c with
  | none => cases h4
  | some m' => exact ⟨m', rfl, correct_cacheOk.2 h3⟩

theorem minimalSub_cache {ctx : EvalCtx} {root e : Expr} {p : Path} {m : EvalCache} {n : SizeCache}
    (hp : nodeAt root p = some e) (hm : CorrectValues ctx root m) (hn : CorrectSizes root n) :
    Prod.fst <$> minimalSub ctx e p (m, n) = minP ctx e p ∧
    ∀ v c, minimalSub ctx e p (m, n) = .ok (v, c) → CorrectValues ctx root c.1 ∧ CorrectSizes root c.2 :=
  agreesS_fst (minimalSub_agrees e p (m, n) (sub_nodeAt.2 hp) ⟨hm, hn⟩)

/-! ### Ties -/

theorem minP_noTie {ctx : EvalCtx} : ∀ (e : Expr) (p : Path), BoolShape e → (∀ x, Skeleton x e → ∃ b, Val ctx x b) →
    NoTie ctx (e, p) → ∃ n, minP ctx e p = .ok n := by
  intro e
  induction e with
  | boolConst i b => exact fun p _ _ _ => ⟨_, rfl⟩
  | boolNeg i e ih =>
    intro p hb hv ht
    exact ih (0 :: p) hb (fun x hx => hv x (.not hx)) fun m hm => ht m (.step .not hm)
  | bin i op l r ihl ihr =>
    intro p hb hv ht
    have conn : op = .and ∨ op = .or ∨ op = .implies → BoolShape l → BoolShape r →
        ∃ n, minP ctx (.bin i op l r) p = .ok n := by
      intro hop hbl hbr
      obtain ⟨lb, hl⟩ := hv l (.left hop (.self _))
      obtain ⟨rb, hr⟩ := hv r (.right hop (.self _))
      have hf := forces_conn (i := i) (p := p) hop hl hr
      have el : minP ctx (.bin i op l r) p = (match (if op = .or then lb else !lb), (if op = .and then !rb else rb) with
          | false, false => .ok (.bin i op l r, p)
          | true, false => minP ctx l (0 :: p)
          | false, true => minP ctx r (1 :: p)
          | true, true => do
            let n0 ← minP ctx l (0 :: p)
            let n1 ← minP ctx r (1 :: p)
            let s0 ← size n0.1
            let s1 ← size n1.1
            .ok (if s0 ≤ s1 then n0 else n1)) := by
        rcases hop with rfl | rfl | rfl <;>
        · show (evalBoolP ctx l >>= fun lb => evalBoolP ctx r >>= fun rb => _) = _
          rw [val_boolP.2 hl, Res.ok_bind, val_boolP.2 hr, Res.ok_bind]
          cases lb <;> cases rb <;> rfl
      rw [el]
      cases h1 : (if op = .or then lb else !lb) <;> cases h2 : (if op = .and then !rb else rb) <;> dsimp only
      · exact ⟨_, rfl⟩
      · have hfr := (hf (r, 1 :: p)).2 (.inr ⟨rfl, h2⟩)
        exact ihr _ hbr (fun x hx => hv x (.right hop hx)) fun m hm => ht m (.step hfr hm)
      · have hfl := (hf (l, 0 :: p)).2 (.inl ⟨rfl, h1⟩)
        exact ihl _ hbl (fun x hx => hv x (.left hop hx)) fun m hm => ht m (.step hfl hm)
      · have hfr := (hf (r, 1 :: p)).2 (.inr ⟨rfl, h2⟩)
        have hfl := (hf (l, 0 :: p)).2 (.inl ⟨rfl, h1⟩)
        have := ht _ (.self _) _ _ hfl hfr
        simp at this
    cases op with
    | and | or | implies => exact conn (by simp) hb.1 hb.2
    | unknown => exact hb.elim
    | _ => exact ⟨_, rfl⟩
  | _ => exact fun p h => h.elim

/-! ### Order of the listing -/

theorem strLt_iff {a b : Str} : strLt a b = true ↔ Before a b := by
  constructor
  · intro h
    induction a generalizing b with
    | nil =>
      cases b with
      | nil => cases h
      | cons c b => exact .inl ⟨c, b, rfl⟩
    | cons x a ih =>
      cases b with
      | nil => cases h
      | cons y b =>
        simp only [strLt, Bool.or_eq_true, decide_eq_true_eq, Bool.and_eq_true, beq_iff_eq] at h
        rcases h with h | ⟨h, h'⟩
        · exact .inr ⟨[], x, y, a, b, rfl, rfl, h⟩
        · obtain rfl := Char.toNat_inj.1 h
          rcases ih h' with ⟨c, d, rfl⟩ | ⟨p, u, v, d, d', rfl, rfl, hc⟩
          · exact .inl ⟨c, d, rfl⟩
          · exact .inr ⟨x :: p, u, v, d, d', rfl, rfl, hc⟩
  · rintro (⟨c, d, rfl⟩ | ⟨p, u, v, d, d', rfl, rfl, hc⟩)
    · induction a with
      | nil => rfl
      | cons x a ih => simp [strLt, ih]
    · induction p with
      | nil => simp [strLt, hc]
      | cons x a ih => simp [strLt, ih]

theorem strLt_trans {a b c : Str} (h : strLt a b = true) (h' : strLt b c = true) : strLt a c = true := by
  induction a generalizing b c with
  | nil =>
    cases b with
    | nil => cases h
    | cons y b =>
      cases c with
      | nil => cases h'
      | cons z c => rfl
  | cons x a ih =>
    cases b with
    | nil => cases h
    | cons y b =>
      cases c with
      | nil => cases h'
      | cons z c =>
        simp only [strLt, Bool.or_eq_true, decide_eq_true_eq, Bool.and_eq_true, beq_iff_eq] at h h' ⊢
        rcases h with h | ⟨h, h1⟩ <;> rcases h' with h' | ⟨h', h2⟩
        · left; omega
        · left; omega
        · left; omega
        · exact .inr ⟨by omega, ih h1 h2⟩

theorem strLt_total {a b : Str} (h : strLt a b = false) (hne : a ≠ b) : strLt b a = true := by
  induction a generalizing b with
  | nil =>
    cases b with
    | nil => exact absurd rfl hne
    | cons y b => cases h
  | cons x a ih =>
    cases b with
    | nil => rfl
    | cons y b =>
      simp only [strLt, Bool.or_eq_false_iff, decide_eq_false_iff_not, Bool.and_eq_false_iff, beq_eq_false_iff_ne,
        Bool.or_eq_true, decide_eq_true_eq, Bool.and_eq_true, beq_iff_eq] at h ⊢
      by_cases hxy : x.toNat = y.toNat
      · obtain rfl := Char.toNat_inj.1 hxy
        right
        refine ⟨rfl, ih ?_ fun he => hne (by rw [he])⟩
        rcases h.2 with h | h
        · exact absurd rfl h
        · exact h
      · left
        have := h.1
        omega

theorem strLt_irrefl (a : Str) : strLt a a = false := by
  induction a with
  | nil => rfl
  | cons x a ih => simp [strLt, ih]

theorem orderedInsert_perm {α : Type} (k : Str) (a : α) (m : List (Str × α)) :
    (orderedInsert k a m).Perm ((k, a) :: m) := by
  induction m with
  | nil => exact List.Perm.refl _
  | cons x m ih =>
    obtain ⟨k', a'⟩ := x
    unfold orderedInsert
    split
    · exact List.Perm.refl _
    · exact (ih.cons _).trans (.swap _ _ _)

theorem ordered_perm {α : Type} (m : List (Str × α)) : (ordered m).Perm m := by
  induction m with
  | nil => exact List.Perm.refl _
  | cons x m ih => exact (orderedInsert_perm _ _ _).trans (ih.cons _)

theorem orderedInsert_sorted {α : Type} (k : Str) (a : α) {m : List (Str × α)}
    (h : m.Pairwise fun x y => strLt x.1 y.1 = true) (hk : ∀ x ∈ m, x.1 ≠ k) :
    (orderedInsert k a m).Pairwise fun x y => strLt x.1 y.1 = true := by
  induction m with
  | nil => simp [orderedInsert]
  | cons x m ih =>
    obtain ⟨k', a'⟩ := x
    obtain ⟨h1, h2⟩ := List.pairwise_cons.1 h
    unfold orderedInsert
    split
    · rename_i hlt
      refine List.pairwise_cons.2 ⟨fun y hy => ?_, h⟩
      rcases List.mem_cons.1 hy with rfl | hy
      · exact hlt
      · exact strLt_trans hlt (h1 y hy)
    · rename_i hlt
      refine List.pairwise_cons.2 ⟨fun y hy => ?_, ih h2 fun y hy => hk y (List.mem_cons_of_mem _ hy)⟩
      rcases List.mem_cons.1 ((orderedInsert_perm k a m).mem_iff.1 hy) with rfl | hy
      · exact strLt_total (by simpa using hlt) (Ne.symm (hk (k', a') (List.mem_cons_self)))
      · exact h1 y hy

theorem ordered_sorted {α : Type} {m : List (Str × α)} (h : (m.map Prod.fst).Nodup) :
    (ordered m).Pairwise fun x y => strLt x.1 y.1 = true := by
  induction m with
  | nil => exact List.Pairwise.nil
  | cons x m ih =>
    obtain ⟨h1, h2⟩ := List.nodup_cons.1 h
    refine orderedInsert_sorted _ _ (ih h2) fun y hy he => ?_
    exact h1 (he ▸ List.mem_map.2 ⟨y, (ordered_perm m).mem_iff.1 hy, rfl⟩)

theorem flatten_filter {α : Type} (p : α → Bool) (f : α → Str) (m : List α) :
    (m.map fun x => if p x then f x else []).flatten = ((m.filter p).map f).flatten := by
  induction m with
  | nil => rfl
  | cons x m ih =>
    by_cases h : p x
    · simp [h, ih]
    · simp [h, ih]

/-- The listing of relevant names. -/
theorem listing_eq {α : Type} (rel : List Str) {m : List (Str × α)} (h : (m.map Prod.fst).Nodup)
    (f : Str × α → Str) : ∃ lines : List (Str × α),
      ((ordered m).map fun kv => if kv.1 ∈ rel then f kv else []).flatten = (lines.map f).flatten ∧
      (lines.Pairwise fun x y => Before x.1 y.1) ∧
      ∀ k a, (k, a) ∈ lines ↔ k ∈ rel ∧ lookup k m = some a := by
  refine ⟨(ordered m).filter fun kv => decide (kv.1 ∈ rel), ?_, ?_, fun k a => ?_⟩
  · rw [← flatten_filter]
    simp only [decide_eq_true_eq]
  · exact ((ordered_sorted h).filter _).imp fun h => strLt_iff.1 h
  · rw [List.mem_filter, (ordered_perm m).mem_iff, lookup_iff_mem h, decide_eq_true_eq]
    exact And.comm

/-! ### Variables -/

theorem addVariables_iff (e : Expr) (s : List Str) (n : Str) : n ∈ addVariables e s ↔ n ∈ s ∨ Mentions e n := by
  induction e generalizing s with
  | key i m | actionParam i m =>
    simp only [addVariables, Mentions]
    split
    · constructor
      · exact .inl
      · rintro (h | h)
        · exact h
        · rwa [h]
    · simp only [List.mem_cons]
      rw [or_comm]
  | boolNeg i e ih | arithNeg i e ih | typeCast i e ih | field i e f ih => exact ih s
  | bin i op l r ihl ihr =>
    simp only [addVariables, Mentions]
    rw [ihr, ihl, or_assoc]
  | _ => simp [addVariables, Mentions]

theorem getVariables_iff (e : Expr) (n : Str) : n ∈ getVariables e ↔ Mentions e n := by
  unfold getVariables
  rw [addVariables_iff]
  simp

/-! ### Dependence on the variables -/

theorem rtError_congr {α : Type} {ctx ctx' : EvalCtx} (h : ctx.src = ctx'.src) (e : Expr) :
    (rtError ctx e : Res α) = rtError ctx' e := by
  unfold rtError
  rw [h]

theorem chkP_congr {ctx ctx' : EvalCtx} (h : ctx.src = ctx'.src) (e : Expr) {r r' : Res Value} (hr : r = r') :
    chkP ctx e r = chkP ctx' e r' := by
  unfold chkP
  rw [hr, rtError_congr h]

theorem toBoolP_congr {ctx ctx' : EvalCtx} (h : ctx.src = ctx'.src) (e : Expr) {r r' : Res Value} (hr : r = r') :
    toBoolP ctx e r = toBoolP ctx' e r' := by
  unfold toBoolP
  rw [hr, rtError_congr h]

theorem toIntP_congr {ctx ctx' : EvalCtx} (h : ctx.src = ctx'.src) (e : Expr) {r r' : Res Value} (hr : r = r') :
    toIntP ctx e r = toIntP ctx' e r' := by
  unfold toIntP
  rw [hr, rtError_congr h]

theorem castValue_congr {ctx ctx' : EvalCtx} (h : ctx.src = ctx'.src) (e : Expr) (t : Ty) (v : Value) :
    castValue ctx e t v = castValue ctx' e t v := by
  unfold castValue
  rw [rtError_congr h]

theorem evalP_congr {ctx ctx' : EvalCtx} (hsrc : ctx.src = ctx'.src) : ∀ (e : Expr),
    SameOn (Mentions e) ctx.vals ctx'.vals → evalP ctx e = evalP ctx' e := by
  have hrt : ∀ {α : Type} (e : Expr), (rtError ctx e : Res α) = rtError ctx' e := fun e => rtError_congr hsrc e
  intro e
  induction e with
  | notSet i => exact fun _ => chkP_congr hsrc _ rfl
  | boolConst i b => exact fun _ => chkP_congr hsrc _ rfl
  | intConst i s => exact fun _ => chkP_congr hsrc _ rfl
  | key i n =>
    intro h
    refine chkP_congr hsrc _ ?_
    cases h1 : ctx.vals <;> cases h2 : ctx'.vals <;> rw [h1, h2] at h
    · obtain ⟨_, hk⟩ := h
      dsimp only
      rw [hk n rfl, hrt]
    · exact h.elim
    · exact h.elim
    · exact hrt _
  | actionParam i n =>
    intro h
    refine chkP_congr hsrc _ ?_
    cases h1 : ctx.vals <;> cases h2 : ctx'.vals <;> rw [h1, h2] at h
    · exact hrt _
    · exact h.elim
    · exact h.elim
    · dsimp only
      rw [h n rfl, hrt]
  | attr i n =>
    intro h
    refine chkP_congr hsrc _ ?_
    cases h1 : ctx.vals <;> cases h2 : ctx'.vals <;> rw [h1, h2] at h
    · obtain ⟨hp, _⟩ := h
      dsimp only
      rw [hp, hrt]
    · exact h.elim
    · exact h.elim
    · exact hrt _
  | boolNeg i e ih =>
    intro h
    refine chkP_congr hsrc _ ?_
    rw [toBoolP_congr hsrc e (ih h)]
  | arithNeg i e ih =>
    intro h
    refine chkP_congr hsrc _ ?_
    rw [toIntP_congr hsrc e (ih h)]
  | typeCast i e ih =>
    intro h
    refine chkP_congr hsrc _ ?_
    rw [ih h]
    simp only [castValue_congr hsrc]
  | field i e f ih =>
    intro h
    refine chkP_congr hsrc _ ?_
    rw [ih h]
    simp only [hrt]
  | bin i op l r ihl ihr =>
    intro h
    have hl := ihl (h.mono fun n hn => .inl hn)
    have hr := ihr (h.mono fun n hn => .inr hn)
    refine chkP_congr hsrc _ ?_
    have b1 := toBoolP_congr hsrc l hl
    have b2 := toBoolP_congr hsrc r hr
    have i1 := toIntP_congr hsrc l hl
    have i2 := toIntP_congr hsrc r hr
    rw [hl] at b1 i1
    rw [hr] at b2 i2
    cases op <;> simp only [hl, hr, b1, b2, i1, i2]

theorem evalBoolP_congr {ctx ctx' : EvalCtx} (hsrc : ctx.src = ctx'.src) (e : Expr)
    (h : SameOn (Mentions e) ctx.vals ctx'.vals) : evalBoolP ctx e = evalBoolP ctx' e :=
  toBoolP_congr hsrc e (evalP_congr hsrc e h)

theorem minP_congr {ctx ctx' : EvalCtx} (hsrc : ctx.src = ctx'.src) : ∀ (e : Expr) (p : Path),
    SameOn (Mentions e) ctx.vals ctx'.vals → minP ctx e p = minP ctx' e p := by
  intro e
  induction e with
  | boolNeg i e ih => exact fun p h => ih _ h
  | bin i op l r ihl ihr =>
    intro p h
    have h1 := h.mono (Q := Mentions l) fun n hn => .inl hn
    have h2 := h.mono (Q := Mentions r) fun n hn => .inr hn
    cases op <;> first | rfl | simp only [minP, ihl _ h1, ihr _ h2, evalBoolP_congr hsrc _ h1, evalBoolP_congr hsrc _ h2]
  | _ => intros; rfl

theorem justifies_mentions {x e : Expr} (h : Skeleton x e) {n : Str} (hn : Mentions x n) : Mentions e n := by
  induction h with
  | self => exact hn
  | not _ ih => exact ih hn
  | left _ _ ih => exact .inl (ih hn)
  | right _ _ ih => exact .inr (ih hn)

/-! ### Explanations of whole checks -/

theorem reason_of_table {entry : RtEntry} {ci : ConstraintInfo} {ti : TableInfo}
    (h : lookup entry.tableId ci.tables = some ti) (hne : tableReason entry ti ≠ .ok []) :
    reasonEntryViolatesConstraint entry ci = tableReason entry ti := by
  rw [reason_found h]
  generalize tableReason entry ti = r at hne
  cases r with
  | ok m =>
    rw [Res.ok_bind]
    exact if_pos fun hm => hne (by rw [hm])
  | _ => rfl

theorem quote_msg_ne {vals : CtxVals} {v : Bool} {rel : List Str} (r : Res Str) :
    (r >>= fun text => (Res.ok (violationText vals v text rel) : Res Str)) ≠ .ok [] := by
  cases r with
  | ok t =>
    rw [Res.ok_bind]
    intro h
    injection h with h
    exact violationText_ne_nil _ _ _ _ h
  | _ => simp [bind, Res.bind]

/-- What a violated table constraint leads to. -/
theorem table_explained {sys : Sys} {p : P4Info} {ci : ConstraintInfo} {entry : RtEntry} {ti : TableInfo}
    {s : SExpr} {ρ : Env} (hci : p4ToConstraintInfo sys p = .ok ci) (h : TableCase ci entry ti s ρ)
    (hn : NoOrderedExact (sigOf (.table ti.keysByName)) s) (hf : Fails (sigOf (.table ti.keysByName)) ρ s) :
    ∃ c ctx e n v y, ti.constraint = some c ∧ parseTableEntry entry ti = .ok ctx ∧
      parseConstraint sys .table ti.source = .ok e ∧ ti.source.loc.src ≠ .notSet ∧ ti.source.loc.col = 0 ∧
      NodeOf y e ∧ inferAndCheck ti.source (.table ti.keysByName) y = .ok n.1 ∧ Best ctx (c, []) n ∧ Val ctx n.1 v ∧
      minP ctx c [] = .ok n ∧
      reasonEntryViolatesConstraint entry ci = (quoteSub ti.source y.start y.stop >>= fun text =>
        .ok (violationText ctx.vals v text (getVariables n.1))) := by
  obtain ⟨d, hd, hid, hti⟩ := (table_of_info hci).1 h.found
  obtain ⟨c, ctx, hc, ht, hp, henv, h1, h2, h3⟩ := h.check
  obtain ⟨hx, e, s', hparse, hi, _⟩ := tableInfo_constraint hti hc
  obtain ⟨hset, hcol⟩ := extract_loc hx
  obtain ⟨c', hc', hch⟩ := h.checked
  rw [hc] at hc'
  cases hc'
  have ha := checked_abs hch hi
  obtain ⟨b, hb⟩ := h3 hn
  cases b with
  | true => exact absurd hf (holds_not_fails (h1 hb))
  | false =>
    obtain ⟨m, hm, hcheck⟩ := checkConstraint_false ht hb
    have henv' := h.env
    rw [← henv] at henv'
    obtain ⟨_, hsrc, _⟩ := parseTableEntry_env h.wf hp
    rcases explained hi ha (entry_consistent h.wf h.ok henv') h.widths (.inr (by rw [henv'.priority]; simp)) hn
      (tableInfo_noBool hti) ht (correct_cacheOk.2 hm) with ⟨n, v, y, k1, k2, k3, k4, k5, k6⟩ | ⟨_, _, k⟩
    · refine ⟨c, ctx, e, n, v, y, hc, hp, hparse, hset, hcol, k3, k4, k1, k2, k5, ?_⟩
      have hr : tableReason entry ti = (quoteSub ti.source y.start y.stop >>= fun text =>
          .ok (violationText ctx.vals v text (getVariables n.1))) := by
        unfold tableReason
        rw [hc]
        dsimp only
        rw [hp, hcheck, k6, hsrc]
      rw [reason_of_table h.found (by rw [hr]; exact quote_msg_ne _), hr]
    · exact absurd (infer_noBare hi) k

/-- What a violated action constraint leads to. -/
theorem action_explained {sys : Sys} {p : P4Info} {ci : ConstraintInfo} {a : RtAction} {ai : ActionInfo}
    {s : SExpr} {ρ : Env} (hci : p4ToConstraintInfo sys p = .ok ci) (h : ActionCase ci a ai s ρ) (hs : AttrFree s)
    (hf : Fails (sigOf (.action ai.paramsByName)) ρ s) :
    ∃ c ctx e, ai.constraint = some c ∧ parseAction a ai = .ok ctx ∧
      parseConstraint sys .action ai.source = .ok e ∧ ai.source.loc.src ≠ .notSet ∧ ai.source.loc.col = 0 ∧
      ((∃ n v y, NodeOf y e ∧ inferAndCheck ai.source (.action ai.paramsByName) y = .ok n.1 ∧ Best ctx (c, []) n ∧
        Val ctx n.1 v ∧ minP ctx c [] = .ok n ∧
        reasonAction a ci = (quoteSub ai.source y.start y.stop >>= fun text =>
          .ok (violationText ctx.vals v text (getVariables n.1)))) ∨
      (reasonAction a ci = .err .invalidArgument ∧ ¬ NoTie ctx (c, []))) := by
  obtain ⟨d, hd, hid, hai⟩ := (action_of_info hci).1 h.found
  obtain ⟨c, ctx, hc, ht, hp, henv, h1, h2, h3⟩ := h.check hs
  obtain ⟨hx, e, s', hparse, hi, _⟩ := actionInfo_constraint hai hc
  obtain ⟨hset, hcol⟩ := extract_loc hx
  obtain ⟨c', hc', hch⟩ := h.checked
  rw [hc] at hc'
  cases hc'
  have ha := checked_abs hch hi
  have hn := action_noOrderedExact h.bits s
  obtain ⟨b, hb⟩ := h3 hn
  refine ⟨c, ctx, e, hc, hp, hparse, hset, hcol, ?_⟩
  cases b with
  | true => exact absurd hf (holds_not_fails (h1 hb))
  | false =>
    obtain ⟨m, hm, hcheck⟩ := checkConstraint_false ht hb
    have henv' := h.env
    rw [← henv] at henv'
    obtain ⟨_, hsrc, _⟩ := parseAction_env h.wf hp
    have hcons := action_consistent h.wf h.complete henv' h.bits
    rcases explained hi ha hcons h.widths (.inl hs) hn
      (actionInfo_noBool hai) ht (correct_cacheOk.2 hm) with ⟨n, v, y, k1, k2, k3, k4, k5, k6⟩ | ⟨k, k', _⟩
    · left
      refine ⟨n, v, y, k3, k4, k1, k2, k5, ?_⟩
      rw [reasonAction_found h.found hc, hp, hcheck, k6, hsrc]
    · right
      refine ⟨by rw [reasonAction_found h.found hc, hp, hcheck, k], fun hno => ?_⟩
      have hbs := infer_boolShape (actionInfo_noBool hai) hi ht
      obtain ⟨n, hn'⟩ := minP_noTie c [] hbs
        (fun x hx => skeleton_val hcons h.widths (.inl hs) hn hbs hi ha hx) hno
      rw [k'] at hn'
      cases hn'

/-! ### Equal listings -/

theorem sorted_ext {α : Type} {l l' : List (Str × α)} (h : l.Pairwise fun x y => strLt x.1 y.1 = true)
    (h' : l'.Pairwise fun x y => strLt x.1 y.1 = true) (hm : ∀ x, x ∈ l ↔ x ∈ l') : l = l' := by
  induction l generalizing l' with
  | nil =>
    cases l' with
    | nil => rfl
    | cons x l' => exact absurd ((hm x).2 List.mem_cons_self) (by simp)
  | cons x l ih =>
    cases l' with
    | nil => exact absurd ((hm x).1 List.mem_cons_self) (by simp)
    | cons y l' =>
      obtain ⟨h1, h2⟩ := List.pairwise_cons.1 h
      obtain ⟨h1', h2'⟩ := List.pairwise_cons.1 h'
      have asym : ∀ {a b : Str}, strLt a b = true → strLt b a = true → False := fun ha hb => by
        have := strLt_trans ha hb
        rw [strLt_irrefl] at this
        cases this
      have hxy : x = y := by
        rcases List.mem_cons.1 ((hm x).1 List.mem_cons_self) with e | e
        · exact e
        · rcases List.mem_cons.1 ((hm y).2 List.mem_cons_self) with e' | e'
          · exact e'.symm
          · exact (asym (h1' x e) (h1 y e')).elim
      subst hxy
      refine congrArg _ (ih h2 h2' fun z => ⟨fun hz => ?_, fun hz => ?_⟩)
      · rcases List.mem_cons.1 ((hm z).1 (List.mem_cons_of_mem _ hz)) with rfl | e
        · exact (asym (h1 z hz) (h1 z hz)).elim
        · exact e
      · rcases List.mem_cons.1 ((hm z).2 (List.mem_cons_of_mem _ hz)) with rfl | e
        · exact (asym (h1' z hz) (h1' z hz)).elim
        · exact e

theorem listing_congr {α : Type} (rel : List Str) {m m' : List (Str × α)} (h : (m.map Prod.fst).Nodup)
    (h' : (m'.map Prod.fst).Nodup) (f : Str × α → Str) (hm : ∀ k ∈ rel, lookup k m = lookup k m') :
    ((ordered m).map fun kv => if kv.1 ∈ rel then f kv else []).flatten =
      ((ordered m').map fun kv => if kv.1 ∈ rel then f kv else []).flatten := by
  obtain ⟨l, e1, e2, e3⟩ := listing_eq rel h f
  obtain ⟨l', e1', e2', e3'⟩ := listing_eq rel h' f
  rw [e1, e1']
  have : l = l' := by
    refine sorted_ext (e2.imp fun h => strLt_iff.2 h) (e2'.imp fun h => strLt_iff.2 h) fun x => ?_
    obtain ⟨k, a⟩ := x
    rw [e3, e3']
    constructor
    · exact fun ⟨hk, h⟩ => ⟨hk, by rw [← hm k hk]; exact h⟩
    · exact fun ⟨hk, h⟩ => ⟨hk, by rw [hm k hk]; exact h⟩
  rw [this]

/-- The whole check of a constraint depends only on the variables it mentions. -/
theorem checkConstraint_congr {c : Expr} {ctx ctx' : EvalCtx} (hsrc : ctx.src = ctx'.src)
    (hs : SameOn (Mentions c) ctx.vals ctx'.vals)
    (htext : ∀ v text rel, (∀ n ∈ rel, Mentions c n) →
      violationText ctx.vals v text rel = violationText ctx'.vals v text rel) :
    checkConstraint c (.ok ctx) = checkConstraint c (.ok ctx') := by
  by_cases ht : c.ty = .boolean
  · have hb := evalBoolP_congr hsrc c hs
    have hroot : ∀ ctx, checkConstraint c (.ok ctx) = (evalToBoolC ctx c [] [] >>= fun x =>
        if x.1 then .ok [] else explainViolation ctx c x.2) := by
      intro ctx
      unfold checkConstraint
      rw [if_neg (fun h => h ht), Res.ok_bind]
    obtain ⟨a1, a2, a3, a4⟩ := evalToBoolC_root ctx c
    obtain ⟨b1, b2, b3, b4⟩ := evalToBoolC_root ctx' c
    rw [hroot, hroot]
    cases h : evalBoolP ctx c with
    | ok b =>
      obtain ⟨m, h1, hm⟩ := a1 b h
      obtain ⟨m', h1', hm'⟩ := b1 b (hb ▸ h)
      rw [h1, h1', Res.ok_bind, Res.ok_bind]
      cases b with
      | true => rfl
      | false =>
        show explainViolation ctx c m = explainViolation ctx' c m'
        rw [explain_eq (correct_cacheOk.2 hm), explain_eq (correct_cacheOk.2 hm'), minP_congr hsrc c [] hs]
        cases hn : minP ctx' c [] with
        | ok n =>
          rw [Res.ok_bind, Res.ok_bind]
          have hsk := justifies_skeleton (minP_best c [] n hn).1
          rw [evalBoolP_congr hsrc n.1 (hs.mono fun _ hn => justifies_mentions hsk hn), hsrc]
          congr 1
          funext v
          congr 1
          funext text
          rw [htext v text _ fun x hx => justifies_mentions hsk ((getVariables_iff _ _).1 hx)]
        | _ => rfl
    | err x => rw [a2 x h, b2 x (hb ▸ h)]; rfl
    | crash => rw [a3 h, b3 (hb ▸ h)]; rfl
    | oof => rw [a4 h, b4 (hb ▸ h)]; rfl
  · unfold checkConstraint
    rw [if_pos ht, if_pos ht]

theorem evalP_bool_ty {ctx : EvalCtx} {e : Expr} {b : Bool} (h : evalP ctx e = .ok (.bool b)) : e.ty = .boolean := by
  have := evalP_shape h
  generalize e.ty = t at this
  cases this; rfl

/-- What a violated constraint is reported as. -/
theorem checkConstraint_msg {c : Expr} {parse : Res EvalCtx} {msg : Str} (hne : msg ≠ [])
    (h : checkConstraint c parse = .ok msg) : ∃ ctx n v text, parse = .ok ctx ∧ Val ctx c false ∧ minP ctx c [] = .ok n ∧
      Val ctx n.1 v ∧ quoteSub ctx.src n.1.start n.1.stop = .ok text ∧
      msg = violationText ctx.vals v text (getVariables n.1) := by
  obtain ⟨_, ctx, m, hp, hb, hm, hx⟩ := checkConstraint_violated hne h
  rw [explain_eq (correct_cacheOk.2 hm)] at hx
  simp only [Res.bind_eq_ok] at hx
  obtain ⟨n, h1, v, h2, text, h3, h4⟩ := hx
  injection h4 with h4
  exact ⟨ctx, n, v, text, hp, val_boolP.1 hb, h1, val_boolP.1 h2, h3, h4.symm⟩

end P4C
