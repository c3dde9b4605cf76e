import Verif.Proofs.Solver
import Verif.Proofs.Verdict

/-
Soundness and completeness of the constraint solver.
-/

namespace P4C

open Spec

/-! ### Only known names can be evaluated -/

theorem evalSym_cast_ok {src : ConstraintSource} {env : SymEnv} {e : Expr} {t : Ty} {r : SymResult}
    (h : evalSym src env (castTransitivelyTo e t) = .ok r) : ∃ r', evalSym src env e = .ok r' := by
  have hw : ∀ {e : Expr} {t : Ty} {r : SymResult}, evalSym src env (wrapWithCast e t) = .ok r →
      ∃ r', evalSym src env e = .ok r' := by
    intro e t r h
    unfold wrapWithCast at h
    rw [evalSym_typeCast] at h
    simp only [symToExpr, Res.bind_eq_ok] at h
    obtain ⟨_, ⟨r', h, _⟩, _⟩ := h
    exact ⟨r', h⟩
  have h1 : ∀ {r}, evalSym src env (castIntStep e t) = .ok r → ∃ r', evalSym src env e = .ok r' := by
    intro r h
    unfold castIntStep at h
    split at h
    · exact hw h
    · exact ⟨_, h⟩
  unfold castTransitivelyTo at h
  dsimp only at h
  split at h
  · obtain ⟨r', h⟩ := hw h
    exact h1 h
  · exact h1 h

theorem evalSym_known {src src' : ConstraintSource} {ks : List (Str × VarInfo)} {env : SymEnv} {e e' : Expr}
    {s : SExpr} {r : SymResult} (h : inferAndCheck src (.table ks) e = .ok e') (ha : abs e = some s)
    (hr : evalSym src' env e' = .ok r) : Known env s := by
  induction e generalizing e' s r with
  | notSet i => simp [abs] at ha
  | typeCast i e => simp [abs] at ha
  | boolConst i b => simp [abs] at ha; subst ha; trivial
  | intConst i n => simp [abs] at ha; obtain ⟨z, hz, rfl⟩ := ha; trivial
  | key i n =>
    simp [abs] at ha; subst ha
    obtain ⟨t, _, _, rfl⟩ := infer_key h
    simp only [evalSym, findPtrOrStatus, Res.bind_eq_ok] at hr
    obtain ⟨k, hk, _⟩ := hr
    cases hl : lookup n env.keys with
    | none => rw [hl] at hk; cases hk
    | some k => simp [Known, NamesIn, hasKey, hl]
  | actionParam i n => simp [inferAndCheck, quotingError_ne_ok] at h
  | attr i n =>
    have hty := infer_sound h ha
    simp [abs] at ha; subst ha
    generalize e'.ty = t at hty
    cases hty with
    | priority =>
    simp [inferAndCheck, getAttributeInfo, illegalType] at h
    subst h
    simp only [evalSym, findPtrOrStatus, Res.bind_eq_ok] at hr
    obtain ⟨k, hk, _⟩ := hr
    cases hl : lookup c!"priority" env.attrs with
    | none => rw [hl] at hk; cases hk
    | some k => simp [Known, NamesIn, hasKey, hl]
  | boolNeg i e ih =>
    simp [abs] at ha; obtain ⟨s', ha, rfl⟩ := ha
    simp only [inferAndCheck, Res.bind_eq_ok] at h
    obtain ⟨e1, h1, h⟩ := h
    split at h
    · simp [quotingError_ne_ok] at h
    cases h
    simp only [evalSym, symToExpr, Res.bind_eq_ok] at hr
    obtain ⟨_, ⟨r', hr, _⟩, _⟩ := hr
    have := ih h1 ha hr
    exact this
  | arithNeg i e ih =>
    simp [abs] at ha; obtain ⟨s', ha, rfl⟩ := ha
    simp only [inferAndCheck, Res.bind_eq_ok] at h
    obtain ⟨e1, h1, h⟩ := h
    split at h
    · simp [quotingError_ne_ok] at h
    cases h
    simp only [evalSym, symToExpr, Res.bind_eq_ok] at hr
    obtain ⟨_, ⟨r', hr, _⟩, _⟩ := hr
    have := ih h1 ha hr
    exact this
  | field i e f ih =>
    simp [abs] at ha; obtain ⟨s', ha, rfl⟩ := ha
    simp only [inferAndCheck, Res.bind_eq_ok] at h
    obtain ⟨e1, h1, h⟩ := h
    split at h
    · simp [quotingError_ne_ok] at h
    rename_i t ht
    cases h
    have hft := fieldTy_iff.1 ht
    have hty := infer_sound h1 ha
    simp only [evalSym, Res.bind_eq_ok] at hr
    obtain ⟨k, hk, _⟩ := hr
    have hkey : ∃ i' n, e = .key i' n := by
      cases e with
      | key i' n => exact ⟨i', n, rfl⟩
      | actionParam i' n => simp [inferAndCheck, quotingError_ne_ok] at h1
      | bin i' op l r =>
        simp only [abs, Option.bind_eq_some_iff] at ha
        obtain ⟨sl, _, sr, _, ha⟩ := ha
        rcases binop_cases ha with ⟨_, _, o, rfl, _⟩ | ⟨_, _, o, rfl, _, _⟩ <;>
          rcases hasTy_composite hty hft with ⟨n, h⟩ | ⟨n, h⟩ <;> cases h
      | _ =>
        simp [abs] at ha
        all_goals first | obtain ⟨_, _, rfl⟩ := ha | subst ha
        all_goals rcases hasTy_composite hty hft with ⟨n, h⟩ | ⟨n, h⟩ <;> cases h
    obtain ⟨i', n, rfl⟩ := hkey
    obtain ⟨t', _, _, rfl⟩ := infer_key h1
    have : evalSym src' env (.key (i'.withTy t') n) = .ok (.key k) := by
      simp only [protoKey] at hk
      simp only [evalSym, hk, Res.ok_bind]
    have := ih h1 ha this
    exact this
  | bin i op l r ihl ihr =>
    simp only [abs, Option.bind_eq_some_iff] at ha
    obtain ⟨sl, hsl, sr, hsr, ha⟩ := ha
    rw [infer_bin] at h
    obtain ⟨l', r', hl, hr', h⟩ := h
    have hops : ∀ {i op a b r}, evalSym src' env (.bin i op a b) = .ok r →
        (∃ x, evalSym src' env a = .ok x) ∧ ∃ x, evalSym src' env b = .ok x := by
      intro i op a b r h
      simp only [evalSym, Res.bind_eq_ok] at h
      obtain ⟨x, hx, y, hy, _⟩ := h
      exact ⟨⟨x, hx⟩, y, hy⟩
    have hboth : Known env sl ∧ Known env sr := by
      rcases h with ⟨_, _, _, rfl⟩ | ⟨_, t, _, _, rfl⟩
      · obtain ⟨⟨x, hx⟩, y, hy⟩ := hops hr
        exact ⟨ihl hl hsl hx, ihr hr' hsr hy⟩
      · obtain ⟨⟨x, hx⟩, y, hy⟩ := hops hr
        obtain ⟨x', hx⟩ := evalSym_cast_ok hx
        obtain ⟨y', hy⟩ := evalSym_cast_ok hy
        exact ⟨ihl hl hsl hx, ihr hr' hsr hy⟩
    rcases binop_cases ha with ⟨_, _, o, rfl, _⟩ | ⟨_, _, o, rfl, _, _⟩ <;> exact hboth

/-- The formula of a checked constraint. -/
theorem formula_means {m : Interp} {src : ConstraintSource} {ks : List (Str × VarInfo)} {env : SymEnv} {ρ : Env}
    {c : Expr} {s : SExpr} (hE : EnvCorr m (sigOf (.table ks)) env ρ) (hc : Checked (.table ks) c s)
    (hb : c.ty = .boolean) (hk : Known env s) :
    ∃ t : Term .bool, evaluateConstraintSymbolically c src env = .ok ⟨.bool, t⟩ ∧
      SignedMeans (sigOf (.table ks)) ρ s .boolean (.bool (t.den m)) := by
  obtain ⟨src', e, hi, ha⟩ := hc
  obtain ⟨r, v, hr, hv, _, hm⟩ := (evalSym_means (src' := src) hE hi ha).1 hk
  rw [hb] at hv hm
  cases hv with
  | bool t =>
  refine ⟨t, ?_, hm⟩
  unfold evaluateConstraintSymbolically
  rw [if_neg (by simp [hb]), hr]
  rfl

theorem formula_known {src : ConstraintSource} {ks : List (Str × VarInfo)} {env : SymEnv} {c : Expr} {s : SExpr}
    {z : Z3Expr} (hc : Checked (.table ks) c s) (h : evaluateConstraintSymbolically c src env = .ok z) :
    c.ty = .boolean ∧ Known env s := by
  obtain ⟨src', e, hi, ha⟩ := hc
  unfold evaluateConstraintSymbolically at h
  split at h
  · cases h
  · rename_i hb
    refine ⟨Decidable.not_not.1 hb, ?_⟩
    simp only [symToExpr, Res.bind_eq_ok] at h
    obtain ⟨r, hr, _⟩ := h
    exact evalSym_known hi ha hr

/-! ### Soundness -/

theorem canonicalMatch_denotes {t : Ty} {m : MatchVal} (h : CanonicalMatch t m) : ∃ v, MatchDenotes t m v := by
  cases h with
  | exact => exact ⟨_, .exact _ _⟩
  | optional => exact ⟨_, .optional _ _⟩
  | ternary => exact ⟨_, .ternary _ _ _⟩
  | lpm => exact ⟨_, .lpm _ _ _⟩

/-- The concretized entry is one of the table, and it is what the model of the solver describes. -/
theorem concretize_env {z : Z3Oracle} {ti : TableInfo} {skip : Str → Res Bool} {ks : List (Str × SymKey)}
    {as : List (Term .bool)} {s s' : Solver} {cs : List Expr} {entry : RtEntry} (h : SolverInv ti skip ks as s cs)
    (hz : z.Sound) (hwf : TableWF ti) (ho : Omittable ti fun n => skip n = .ok true)
    (hc : s.concretize z = (.ok entry, s')) :
    EntryOk ti entry ∧ ∃ m ρ, (∃ hi, z.check s.calls s.assertions = .sat m hi) ∧
      (∀ a ∈ s.assertions, a.den m = true) ∧ entry.action = none ∧ EntryEnv ti entry ρ ∧
      EnvCorr m (sigOf (.table ti.keysByName)) s.env ρ := by
  obtain ⟨m, hmod, hm, hact, hcan, hkeys, hprio⟩ := concretize_spec h hz hwf hc
  have hok : EntryOk ti entry := by
    constructor
    · intro fm hfm
      obtain ⟨n, ki, hmem, _, hid, hcm⟩ := hcan.keys fm hfm
      exact ⟨ki, by rw [hid]; exact (hwf.byName n ki hmem).2, canonicalMatch_denotes hcm⟩
    · exact hcan.once
    · intro id ki hmem
      obtain ⟨hid, hmem'⟩ := hwf.byId id ki hmem
      rcases hkeys _ _ hmem' with ⟨hs, _⟩ | ⟨_, k, v, _, _, h⟩
      · exact .inr (ho _ _ hmem' hs)
      · rcases h with ⟨fm, hfm, hi, _⟩ | ⟨_, hw⟩
        · exact .inl ⟨fm, hfm, hi.trans hid⟩
        · exact .inr ⟨v, hw⟩
  refine ⟨hok, ?_⟩
  obtain ⟨ctx, hctx⟩ := (parseTableEntry_iff hwf entry).2 hok
  have henv := (parseTableEntry_env hwf hctx).1
  refine ⟨m, envOf ctx, hmod, hm, hact, henv, ?_, ?_⟩
  · intro n k hk
    rw [h.env] at hk
    obtain ⟨hk1, hk2, _⟩ := h.key hwf
    obtain ⟨ki, hmem⟩ := hk2 n k hk
    have hΓ : (sigOf (.table ti.keysByName)).key n = some ki.ty := by
      simp only [sigOf, hwf.lookup_name.2 hmem, Option.map_some]
    rcases hk1 n ki hmem with ⟨_, hnone⟩ | ⟨hsf, k', a, hsk, hl, _⟩
    · change lookup n ks = some k at hk
      rw [hnone] at hk
      cases hk
    · change lookup n ks = some k at hk
      rw [hl] at hk
      cases hk
      rcases hkeys n ki hmem with ⟨hs, _⟩ | ⟨_, k'', v, hl', hv, hkv⟩
      · rw [hs] at hsf
        cases hsf
      · rw [hl] at hl'
        cases hl'
        obtain ⟨_, _, hpos⟩ := symKeyFor_val hsk m
        exact ⟨ki.ty, v, hΓ, (henv.key n v).2 ⟨ki, hmem, hkv⟩, hpos, hv⟩
  · intro n t ht
    rw [h.env] at ht
    unfold solverEnv at ht
    cases hpr : prioritized ti with
    | false => rw [hpr] at ht; cases ht
    | true =>
      rw [hpr, if_pos rfl] at ht
      dsimp only [lookup] at ht
      split at ht
      · rename_i hn
        cases ht
        exact ⟨hn.symm, _, rfl, by rw [henv.priority, hprio hpr]⟩
      · cases ht

theorem concretize_holds {z : Z3Oracle} {ti : TableInfo} {skip : Str → Res Bool} {ks : List (Str × SymKey)}
    {as : List (Term .bool)} {s s' : Solver} {cs : List Expr} {entry : RtEntry} (h : SolverInv ti skip ks as s cs)
    (hz : z.Sound) (hwf : TableWF ti) (ho : Omittable ti fun n => skip n = .ok true)
    (hc : s.concretize z = (.ok entry, s')) :
    EntryOk ti entry ∧ entry.action = none ∧ ∃ ρ, EntryEnv ti entry ρ ∧
      ∀ c ∈ cs, ∀ se, Checked (.table ti.keysByName) c se → c.ty = .boolean ∧
        SignedHolds (sigOf (.table ti.keysByName)) ρ se := by
  obtain ⟨hok, m, ρ, _, hm, hact, henv, hcorr⟩ := concretize_env h hz hwf ho hc
  refine ⟨hok, hact, ρ, henv, ?_⟩
  intro c hcmem se hch
  obtain ⟨ts, hts, h1, _⟩ := h.assertions
  obtain ⟨t, ht, src, heval⟩ := h1 c hcmem
  obtain ⟨hb, hk⟩ := formula_known hch heval
  refine ⟨hb, ?_⟩
  obtain ⟨t', ht', hmeans⟩ := formula_means (src := src) hcorr hch hb hk
  rw [heval] at ht'
  cases ht'
  rw [hm t (by rw [hts]; exact List.mem_append_right _ ht)] at hmeans
  exact hmeans

/-! ### Satisfiability -/

/-- An interpretation that satisfies the assertions made for keys and priority. -/
def zeroInterp : Interp := fun _ s =>
  match s with
  | .bool => false
  | .int => (1 : Int)
  | .bv w => 0#w

theorem symKeyFor_zero {n : Str} {t : Ty} {k : SymKey} {a : List (Term .bool)} (h : SymKeyFor n t k a) :
    ∀ x ∈ a, x.den zeroInterp = true := by
  cases h with
  | exact => simp
  | ternary w hw v m hv hm =>
    subst hv hm
    intro x hx
    rw [List.mem_singleton.1 hx, den_eq]
    show (0#w &&& 0#w) = 0#w
    simp
  | optional w hw v m hv hm =>
    subst hv hm
    intro x hx
    rcases List.mem_cons.1 hx with rfl | hx
    · rw [den_eq]
      show (0#w &&& 0#w) = 0#w
      simp
    · rw [List.mem_singleton.1 hx]
      show (_ || _) = true
      rw [Bool.or_eq_true]
      left
      rw [den_eq]
      show 0#w = BitVec.ofInt w 0
      simp
  | lpm w hw v p y hv hp hy =>
    subst hv hp hy
    intro x hx
    rw [List.mem_singleton.1 hx]
    show ((decide ((0 : Int) ≤ 1) && decide ((1 : Int) ≤ (w : Int))) && _) = true
    simp only [Bool.and_eq_true, decide_eq_true_eq]
    refine ⟨⟨by decide, by omega⟩, ?_⟩
    rw [den_eq]
    show (0#w >>> _) <<< _ = 0#w
    simp

theorem baseAssertions_zero {ti : TableInfo} {as : List (Term .bool)} (h : ∀ t ∈ as, t.den zeroInterp = true) :
    ∀ t ∈ baseAssertions ti as, t.den zeroInterp = true := by
  intro t ht
  rcases List.mem_append.1 ht with ht | ht
  · exact h t ht
  · split at ht
    · rcases List.mem_cons.1 ht with rfl | ht
      · rfl
      · rw [List.mem_singleton.1 ht]
        rfl
    · cases ht

theorem reachable_sat {z : Z3Oracle} {sys : Sys} {ti : TableInfo} {skip : Str → Res Bool} {s : Solver} {cs : List Expr}
    (hz : z.Sound) (hwf : TableWF ti) (h : Reachable z sys ti skip s cs) :
    ∃ m : Interp, ∀ a ∈ s.assertions, a.den m = true := by
  have hadd : ∀ {s s' : Solver} {c src r}, s.addConstraint z c src = (r, s') →
      (∃ m : Interp, ∀ a ∈ s.assertions, a.den m = true) → ∃ m : Interp, ∀ a ∈ s'.assertions, a.den m = true := by
    intro s s' c src r h hs
    obtain ⟨_, _, _, h⟩ := addConstraint_cases h
    rcases h with ⟨_, t, _, _, n, val, hi, hsat⟩ | ⟨_, h⟩
    · exact ⟨val, hz.sat _ _ _ _ hsat⟩
    · rw [h]
      exact hs
  induction h with
  | create h =>
    obtain ⟨ks, as, hk, h⟩ := create_ok.1 h
    have h0 : SolverInv ti skip ks as (initSolver ti skip ks as) [] :=
      ⟨hk, rfl, rfl, rfl, [], by simp [initSolver], by simp, by simp⟩
    have hbase : ∃ m : Interp, ∀ a ∈ (initSolver ti skip ks as).assertions, a.den m = true := by
      refine ⟨zeroInterp, baseAssertions_zero fun t ht => ?_⟩
      obtain ⟨n, ki, k, a, _, _, hsk, hta⟩ := (h0.key hwf).2.2 t ht
      exact symKeyFor_zero hsk t hta
    rcases h with ⟨hc, rfl⟩ | ⟨c, hc, h⟩
    · exact hbase
    · exact hadd h hbase
  | accepted _ h ih => exact hadd h ih
  | rejected _ h _ ih => exact hadd h ih
  | acceptedText _ h hp hi ih =>
    rcases addConstraintStr_cases h with ⟨e, c, he, hc, h⟩ | ⟨hne, _⟩
    · exact hadd h ih
    · exact (hne rfl).elim
  | rejectedText _ h hr ih =>
    rcases addConstraintStr_cases h with ⟨e, c, he, hc, h⟩ | ⟨_, rfl⟩
    · exact hadd h ih
    · exact ih
  | concretize _ h ih =>
    obtain ⟨_, _, _, h4⟩ := concretize_state h
    rw [h4]
    exact ih

/-! ### Completeness -/

/-- Values of keys in canonical form. -/
inductive CanonVal : Ty → Value → Prop where
  | exact (w x : Nat) : x < 2 ^ w → CanonVal (.exact w) (.exact x)
  | ternary (w a b : Nat) : b < 2 ^ w → a &&& b = a → CanonVal (.ternary w) (.ternary a b)
  | optional (w a b : Nat) : a < 2 ^ w → (b = 0 ∧ a = 0) ∨ b = 2 ^ w - 1 → CanonVal (.optionalMatch w) (.ternary a b)
  | lpm (w a p : Nat) : a < 2 ^ w → p ≤ w → 2 ^ (w - p) ∣ a → CanonVal (.lpm w) (.lpm a p)

theorem canonicalEntry_val {ti : TableInfo} {Skipped : Str → Prop} {entry : RtEntry} (hwf : TableWF ti)
    (hcan : CanonicalEntry ti Skipped entry) {n : Str} {ki : VarInfo} (hmem : (n, ki) ∈ ti.keysByName)
    (hw : ∃ w : Nat, typeBitwidth ki.ty = some w) {v : Value} (hv : KeyValue entry ki v)
    (hr : ∀ w, ki.ty ≠ .range w) : CanonVal ki.ty v := by
  rcases hv with ⟨fm, hfm, hid, hden⟩ | ⟨_, hwild⟩
  · obtain ⟨n', ki', hmem', _, hid', hcm⟩ := hcan.keys fm hfm
    have h1 := (hwf.byName n ki hmem).2
    have h2 := (hwf.byName n' ki' hmem').2
    rw [← hid] at h1
    rw [← hid'] at h2
    have := nodup_keys_unique hwf.nodupId h1 h2
    subst this
    generalize ki.ty = t at hcm hden
    generalize fm.val = mv at hcm hden
    cases hcm with
    | exact _ hlt => cases hden; exact .exact _ _ hlt
    | optional _ hlt =>
      cases hden with
      | optional w v' =>
      rename_i w v _
      have e : ((2 : Int) ^ w - 1) = ((2 ^ w - 1 : Nat) : Int) := by
        have : 0 < 2 ^ w := Nat.pow_pos (by decide)
        have e2 : ((2 ^ w : Nat) : Int) = 2 ^ w := by simp
        omega
      rw [e]
      exact .optional _ _ _ hlt (.inr rfl)
    | ternary _ _ hlt _ hand => cases hden; exact .ternary _ _ _ hlt hand
    | lpm _ hlt _ hp hd => cases hden; exact .lpm _ _ _ hlt hp hd
  · obtain ⟨w, hw⟩ := hw
    generalize ki.ty = t at hwild hw hr
    cases hwild with
    | ternary x => cases hw; exact .ternary w 0 0 (Nat.pow_pos (by decide)) rfl
    | optional x => cases hw; exact .optional w 0 0 (Nat.pow_pos (by decide)) (.inl ⟨rfl, rfl⟩)
    | lpm x => cases hw; exact .lpm w 0 0 (Nat.pow_pos (by decide)) (Nat.zero_le _) (Nat.dvd_zero _)
    | range x => exact (hr _ rfl).elim

/-- The first component of a match. -/
def matchValue : Value → Int
  | .exact v => v
  | .ternary v _ => v
  | .lpm v _ => v
  | _ => 0

/-- The value of the bit-vector constant with the given name and width. -/
def BvConst (ti : TableInfo) (ρ : Env) (name : Str) (w : Nat) (x : Int) : Prop :=
  (∃ ki v, (name, ki) ∈ ti.keysByName ∧ (∃ k a, SymKeyFor ki.name ki.ty k a) ∧ typeBitwidth ki.ty = some (w : Int) ∧
    ρ.key name = some v ∧ x = matchValue v) ∨
  (∃ n ki a, name = n ++ c!"_mask" ∧ (n, ki) ∈ ti.keysByName ∧ (ki.ty = .ternary w ∨ ki.ty = .optionalMatch w) ∧
    ρ.key n = some (.ternary a x))

/-- The value of the integer constant with the given name. -/
def IntConst (ρ : Env) (name : Str) (x : Int) : Prop :=
  (∃ n v, name = n ++ c!"_prefix_length" ∧ ρ.key n = some (.lpm v x)) ∨ (name = c!"priority" ∧ ρ.priority = some x)

open Classical in
/-- The interpretation of the constants given by the values of the keys. -/
noncomputable def interpOf (ti : TableInfo) (ρ : Env) : Interp := fun name s =>
  match s with
  | .bool => false
  | .int => if h : ∃ x, IntConst ρ name x then (choose h : Int) else (0 : Int)
  | .bv w => if h : ∃ x, BvConst ti ρ name w x then BitVec.ofInt w (choose h) else 0#w

theorem intConst_unique {ρ : Env} {name : Str} {x y : Int} (hx : IntConst ρ name x) (hy : IntConst ρ name y) : x = y := by
  have hlen : ∀ n : Str, n ++ c!"_prefix_length" ≠ c!"priority" := by
    intro n h
    have := congrArg List.length h
    simp at this
  rcases hx with ⟨n, v, rfl, h⟩ | ⟨rfl, h⟩
  · rcases hy with ⟨n', v', hn, h'⟩ | ⟨hn, _⟩
    · have := List.append_cancel_right hn
      subst this
      rw [h] at h'
      cases h'
      rfl
    · exact (hlen n hn).elim
  · rcases hy with ⟨n', v', hn, h'⟩ | ⟨hn, h'⟩
    · exact (hlen n' hn.symm).elim
    · rw [h] at h'
      cases h'
      rfl

theorem bvConst_unique {ti : TableInfo} {ρ : Env} {name : Str} {w : Nat} {x y : Int}
    (hd : NamesDistinct ti)
    (hx : BvConst ti ρ name w x) (hy : BvConst ti ρ name w y) : x = y := by
  have hmix : ∀ {n ki ki'}, (n, ki) ∈ ti.keysByName → (ki.ty = .ternary w ∨ ki.ty = .optionalMatch w) →
      (n ++ c!"_mask", ki') ∈ ti.keysByName → (∃ k a, SymKeyFor ki'.name ki'.ty k a) →
      typeBitwidth ki'.ty ≠ some (w : Int) := by
    intro n ki ki' h1 h2 h3 hs h4
    obtain ⟨e1, e2, e3, e4⟩ := hd.noMask n ki w h1 h2 ki' h3
    obtain ⟨k, a, hk⟩ := hs
    generalize ki'.ty = t at e1 e2 e3 e4 h4 hk
    cases hk <;> cases h4
    · exact e1 rfl
    · exact e2 rfl
    · exact e4 rfl
    · exact e3 rfl
  rcases hx with ⟨ki, v, h1, hs, h2, h3, rfl⟩ | ⟨n, ki, a, rfl, h1, h2, h3⟩
  · rcases hy with ⟨ki', v', h1', hs', h2', h3', rfl⟩ | ⟨n, ki', a, rfl, h1', h2', h3'⟩
    · rw [h3] at h3'
      cases h3'
      rfl
    · exact (hmix h1' h2' h1 hs h2).elim
  · rcases hy with ⟨ki', v', h1', hs', h2', h3', rfl⟩ | ⟨n', ki', a', hn, h1', h2', h3'⟩
    · exact (hmix h1 h2 h1' hs' h2').elim
    · have := List.append_cancel_right hn
      subst this
      rw [h3] at h3'
      cases h3'
      rfl

theorem interpOf_int {ti : TableInfo} {ρ : Env} {name : Str} {x : Int} (h : IntConst ρ name x) :
    interpOf ti ρ name .int = x := by
  have : ∃ x, IntConst ρ name x := ⟨x, h⟩
  simp only [interpOf, dif_pos this]
  exact intConst_unique (Classical.choose_spec this) h

theorem interpOf_bv {ti : TableInfo} {ρ : Env} {name : Str} {w : Nat} {x : Int}
    (hd : NamesDistinct ti)
    (h : BvConst ti ρ name w x) : interpOf ti ρ name (.bv w) = BitVec.ofInt w x := by
  have he : ∃ x, BvConst ti ρ name w x := ⟨x, h⟩
  simp only [interpOf, dif_pos he]
  exact congrArg _ (bvConst_unique hd (Classical.choose_spec he) h)

theorem cstr_noNul {s : Str} (h : '\x00' ∉ s) : cstr s = s := by
  unfold cstr
  induction s with
  | nil => rfl
  | cons c s ih =>
    simp only [List.mem_cons, not_or] at h
    rw [List.takeWhile_cons, if_pos (by simpa using fun e => h.1 e.symm), ih h.2]

theorem ofInt_nat_toNat {w x : Nat} (h : x < 2 ^ w) : (BitVec.ofInt w (x : Int)).toNat = x := by
  rw [BitVec.ofInt_natCast, BitVec.toNat_ofNat]
  exact Nat.mod_eq_of_lt h

theorem symVal_exact {m : Interp} {w x : Nat} {t : Term (.bv w)} (h : (t.den m : BitVec w).toNat = x) :
    SymVal m (.exact w) (.key (.exact ⟨.bv w, t⟩)) (.exact x) := by
  subst h
  exact .exact _ _

theorem symVal_ternary {m : Interp} {w x y : Nat} {t k : Term (.bv w)} (h : (t.den m : BitVec w).toNat = x)
    (h' : (k.den m : BitVec w).toNat = y) :
    SymVal m (.ternary w) (.key (.ternary ⟨.bv w, t⟩ ⟨.bv w, k⟩)) (.ternary x y) := by
  subst h h'
  exact .ternary _ _ _

theorem symVal_optional {m : Interp} {w x y : Nat} {t k : Term (.bv w)} (h : (t.den m : BitVec w).toNat = x)
    (h' : (k.den m : BitVec w).toNat = y) :
    SymVal m (.optionalMatch w) (.key (.ternary ⟨.bv w, t⟩ ⟨.bv w, k⟩)) (.ternary x y) := by
  subst h h'
  exact .optional _ _ _

theorem symVal_lpm {m : Interp} {w x : Nat} {y : Int} {t : Term (.bv w)} {p : Term .int}
    (h : (t.den m : BitVec w).toNat = x) (h' : p.den m = y) :
    SymVal m (.lpm w) (.key (.lpm ⟨.bv w, t⟩ ⟨.int, p⟩)) (.lpm x y) := by
  subst h h'
  exact .lpm _ _ _

theorem natCast_eq {a b : Nat} (h : (a : Int) = (b : Int)) : a = b := by omega

/-- The interpretation gives the symbolic keys the values of the keys and satisfies the assertions on them. -/
theorem interpOf_key {ti : TableInfo} {ρ : Env} (hwf : TableWF ti)
    (hd : NamesDistinct ti)
    {n : Str} {ki : VarInfo} {k : SymKey} {a : List (Term .bool)} {v : Value} (hmem : (n, ki) ∈ ti.keysByName)
    (hk : SymKeyFor ki.name ki.ty k a) (hv : ρ.key n = some v) (hc : CanonVal ki.ty v) :
    SymVal (interpOf ti ρ) ki.ty (.key k) v ∧ ∀ t ∈ a, t.den (interpOf ti ρ) = true := by
  have hname := (hwf.byName n ki hmem).1
  have hnul := hd.noNul n ki hmem
  rw [hname] at hk
  have e1 : cstr n = n := cstr_noNul hnul
  have e2 : cstr (n ++ c!"_mask") = n ++ c!"_mask" := cstr_noNul (by simp [hnul])
  have e3 : cstr (n ++ c!"_prefix_length") = n ++ c!"_prefix_length" := cstr_noNul (by simp [hnul])
  have hval : ∀ w : Nat, typeBitwidth ki.ty = some (w : Int) → ∀ x : Nat, x < 2 ^ w → matchValue v = x →
      (interpOf ti ρ n (.bv w) : BitVec w).toNat = x := by
    intro w h1 x hlt hx
    rw [interpOf_bv hd (.inl ⟨ki, v, hmem, ⟨k, a, by rw [hname]; exact hk⟩, h1, hv, rfl⟩), hx]
    exact ofInt_nat_toNat hlt
  have hmask : ∀ (w : Nat) a, (ki.ty = .ternary w ∨ ki.ty = .optionalMatch w) → ∀ x : Nat, x < 2 ^ w →
      v = .ternary a x → (interpOf ti ρ (n ++ c!"_mask") (.bv w) : BitVec w).toNat = x := by
    intro w a h1 x hlt hx
    rw [interpOf_bv hd (.inr ⟨n, ki, a, rfl, hmem, h1, by rw [hv, hx]⟩)]
    exact ofInt_nat_toNat hlt
  have hlen : ∀ (a : Int) (x : Int), v = .lpm a x → interpOf ti ρ (n ++ c!"_prefix_length") .int = x := by
    intro a x hx
    exact interpOf_int (.inl ⟨n, a, rfl, by rw [hv, hx]⟩)
  clear hd hwf hmem hname hv
  generalize ki.ty = t at hk hc hval hmask
  generalize interpOf ti ρ = m at *
  cases hc with
  | exact w x hlt =>
    generalize hw' : (w : Int) = w' at hk
    cases hk with
    | exact w'' hw =>
    have := natCast_eq hw'
    subst this
    exact ⟨symVal_exact (by rw [e1]; exact hval w rfl x hlt rfl), by simp⟩
  | ternary w x y hlt hxy =>
    generalize hw' : (w : Int) = w' at hk
    cases hk with
    | ternary w'' hw tv tm htv htm =>
    have := natCast_eq hw'
    subst this htv htm
    have hx : x < 2 ^ w := by
      have : x ≤ y := hxy ▸ Nat.and_le_right
      omega
    have h1 : ((Term.const (cstr n) (.bv w)).den m : BitVec w).toNat = x := by
      rw [e1]; exact hval w rfl x hx rfl
    have h2 : ((Term.const (cstr (n ++ c!"_mask")) (.bv w)).den m : BitVec w).toNat = y := by
      rw [e2]; exact hmask w x (.inl rfl) y hlt rfl
    refine ⟨symVal_ternary h1 h2, fun t ht => ?_⟩
    rw [List.mem_singleton.1 ht, den_eq]
    refine (bvand_eq_iff _ _).2 ?_
    rw [h1, h2, hxy]
  | optional w x y hlt hxy =>
    generalize hw' : (w : Int) = w' at hk
    cases hk with
    | optional w'' hw tv tm htv htm =>
    have := natCast_eq hw'
    subst this htv htm
    have hp : 0 < 2 ^ w := Nat.pow_pos (by decide)
    have hy : y < 2 ^ w := by omega
    have h1 : ((Term.const (cstr n) (.bv w)).den m : BitVec w).toNat = x := by
      rw [e1]; exact hval w rfl x hlt rfl
    have h2 : ((Term.const (cstr (n ++ c!"_mask")) (.bv w)).den m : BitVec w).toNat = y := by
      rw [e2]; exact hmask w x (.inr rfl) y hy rfl
    refine ⟨symVal_optional h1 h2, fun t ht => ?_⟩
    rcases List.mem_cons.1 ht with rfl | ht
    · rw [den_eq]
      refine (bvand_eq_iff _ _).2 ?_
      rw [h1, h2]
      rcases hxy with ⟨rfl, rfl⟩ | rfl
      · rfl
      · rw [Nat.and_two_pow_sub_one_eq_mod, Nat.mod_eq_of_lt hlt]
    · rw [List.mem_singleton.1 ht]
      show (_ || _) = true
      rw [Bool.or_eq_true]
      rcases hxy with ⟨rfl, rfl⟩ | rfl
      · left
        rw [den_eq]
        apply BitVec.eq_of_toNat_eq
        rw [h2]
        show 0 = (BitVec.ofInt w 0).toNat
        simp
      · right
        rw [den_eq]
        apply BitVec.eq_of_toNat_eq
        rw [h2]
        show 2 ^ w - 1 = (BitVec.ofInt w (-1)).toNat
        rw [ofInt_neg_one, BitVec.toNat_allOnes]
  | lpm w x y hlt hy hd =>
    generalize hw' : (w : Int) = w' at hk
    cases hk with
    | lpm w'' hw tv tp tx htv htp htx =>
    have := natCast_eq hw'
    subst this htv htp htx
    have h1 : ((Term.const (cstr n) (.bv w)).den m : BitVec w).toNat = x := by
      rw [e1]; exact hval w rfl x hlt rfl
    have h2 : ((Term.const (cstr (n ++ c!"_prefix_length")) .int).den m : Int) = (y : Int) := by
      rw [e3]; exact hlen x y rfl
    refine ⟨symVal_lpm h1 h2, fun t ht => ?_⟩
    rw [List.mem_singleton.1 ht]
    show ((decide ((0 : Int) ≤ _) && decide (_ ≤ (w : Int))) && _) = true
    rw [h2]
    simp only [Bool.and_eq_true, decide_eq_true_eq]
    refine ⟨⟨by omega, by omega⟩, ?_⟩
    rw [den_eq]
    have := (lpm_shift_iff (p := (y : Int)) ((Term.const (cstr n) (.bv w)).den m : BitVec w) (by omega) (by omega)).2 (by
      rw [h1]; exact hd)
    rw [← h2] at this
    exact this

theorem symKeyFor_width {n : Str} {t : Ty} {k : SymKey} {a : List (Term .bool)} (h : SymKeyFor n t k a) :
    (∃ w : Nat, typeBitwidth t = some w) ∧ ∀ w, t ≠ .range w := by
  cases h <;> exact ⟨⟨_, rfl⟩, nofun⟩

theorem symSupported_iff {n : Str} {t : Ty} : SymSupported t ↔ ∃ k a, SymKeyFor n t k a := by
  constructor
  · intro h
    cases h with
    | @exact w h =>
      obtain ⟨x, rfl⟩ := Int.eq_ofNat_of_zero_le (Int.le_of_lt h)
      exact ⟨_, _, .exact x (by omega)⟩
    | @ternary w h =>
      obtain ⟨x, rfl⟩ := Int.eq_ofNat_of_zero_le (Int.le_of_lt h)
      exact ⟨_, _, .ternary x (by omega) _ _ rfl rfl⟩
    | @optional w h =>
      obtain ⟨x, rfl⟩ := Int.eq_ofNat_of_zero_le (Int.le_of_lt h)
      exact ⟨_, _, .optional x (by omega) _ _ rfl rfl⟩
    | @lpm w h =>
      obtain ⟨x, rfl⟩ := Int.eq_ofNat_of_zero_le (Int.le_of_lt h)
      exact ⟨_, _, .lpm x (by omega) _ _ _ rfl rfl rfl⟩
  · rintro ⟨k, a, h⟩
    cases h <;> constructor <;> omega

/-- The interpretation given by a canonical entry. -/
theorem interpOf_env {ti : TableInfo} {skip : Str → Res Bool} {ks : List (Str × SymKey)}
    {as : List (Term .bool)} {s : Solver} {cs : List Expr} {entry : RtEntry} {ρ : Env} (h : SolverInv ti skip ks as s cs)
    (hwf : TableWF ti) (hd : NamesDistinct ti) (hcan : CanonicalEntry ti (fun n => skip n = .ok true) entry)
    (henv : EntryEnv ti entry ρ) :
    (∀ t ∈ baseAssertions ti as, t.den (interpOf ti ρ) = true) ∧
    EnvCorr (interpOf ti ρ) (sigOf (.table ti.keysByName)) s.env ρ := by
  obtain ⟨hk1, hk2, hk3⟩ := h.key hwf
  have hkey : ∀ n ki k a, (n, ki) ∈ ti.keysByName → skip n = .ok false → SymKeyFor ki.name ki.ty k a →
      ∃ v, ρ.key n = some v ∧ SymVal (interpOf ti ρ) ki.ty (.key k) v ∧ ∀ t ∈ a, t.den (interpOf ti ρ) = true := by
    intro n ki k a hmem hs hk
    have : ∃ v, KeyValue entry ki v := by
      by_cases he : ∃ fm ∈ entry.matches_, fm.fieldId = ki.id
      · obtain ⟨fm, hfm, hid⟩ := he
        obtain ⟨n', ki', hmem', _, hid', hcm⟩ := hcan.keys fm hfm
        have h1 := (hwf.byName n ki hmem).2
        have h2 := (hwf.byName n' ki' hmem').2
        rw [← hid] at h1
        rw [← hid'] at h2
        have := nodup_keys_unique hwf.nodupId h1 h2
        subst this
        obtain ⟨v, hv⟩ := canonicalMatch_denotes hcm
        exact ⟨v, .inl ⟨fm, hfm, hid, hv⟩⟩
      · have hne : ∀ fm ∈ entry.matches_, fm.fieldId ≠ ki.id := fun fm hfm hid => he ⟨fm, hfm, hid⟩
        have hex := hcan.exact n ki
        generalize hty : ki.ty = t at hk hex
        cases hk with
        | exact w hw =>
          obtain ⟨fm, hfm, hid⟩ := hex w hmem rfl (by rw [hs]; nofun)
          exact (hne fm hfm hid).elim
        | ternary w => exact ⟨_, .inr ⟨hne, by rw [hty]; exact .ternary _⟩⟩
        | optional w => exact ⟨_, .inr ⟨hne, by rw [hty]; exact .optional _⟩⟩
        | lpm w => exact ⟨_, .inr ⟨hne, by rw [hty]; exact .lpm _⟩⟩
    obtain ⟨v, hv⟩ := this
    have hρ := (henv.key n v).2 ⟨ki, hmem, hv⟩
    obtain ⟨hw, hr⟩ := symKeyFor_width hk
    obtain ⟨h1, h2⟩ := interpOf_key hwf hd hmem hk hρ (canonicalEntry_val hwf hcan hmem hw hv hr)
    exact ⟨v, hρ, h1, h2⟩
  have hpr : interpOf ti ρ c!"priority" .int = entry.priority := interpOf_int (.inr ⟨rfl, henv.priority⟩)
  refine ⟨fun t ht => ?_, ?_, ?_⟩
  · rcases List.mem_append.1 ht with ht | ht
    · obtain ⟨n, ki, k, a, hmem, hs, hk, hta⟩ := hk3 t ht
      obtain ⟨_, _, _, h⟩ := hkey n ki k a hmem hs hk
      exact h t hta
    · split at ht
      · rename_i hp
        rcases hcan.priority with ⟨_, h1, h2⟩ | ⟨h1, _⟩
        · rcases List.mem_cons.1 ht with rfl | ht
          · show decide ((0 : Int) < interpOf ti ρ c!"priority" .int) = true
            rw [hpr]
            exact decide_eq_true h1
          · rw [List.mem_singleton.1 ht]
            show decide (interpOf ti ρ c!"priority" .int ≤ (2147483647 : Int)) = true
            rw [hpr]
            have h3 : entry.priority ≤ 2147483647 := by omega
            exact decide_eq_true h3
        · exact (h1 (prioritized_iff.1 hp)).elim
      · cases ht
  · intro n k hk
    rw [h.env] at hk
    change lookup n ks = some k at hk
    obtain ⟨ki, hmem⟩ := hk2 n k hk
    have hΓ : (sigOf (.table ti.keysByName)).key n = some ki.ty := by
      simp only [sigOf, hwf.lookup_name.2 hmem, Option.map_some]
    rcases hk1 n ki hmem with ⟨_, hnone⟩ | ⟨hsf, k', a, hsk, hl, _⟩
    · rw [hnone] at hk
      cases hk
    · rw [hl] at hk
      cases hk
      obtain ⟨v, hv, hsv, _⟩ := hkey n ki _ a hmem hsf hsk
      obtain ⟨_, _, hpos⟩ := symKeyFor_val hsk (interpOf ti ρ)
      exact ⟨ki.ty, v, hΓ, hv, hpos, hsv⟩
  · intro n t ht
    rw [h.env] at ht
    unfold solverEnv at ht
    cases hp : prioritized ti with
    | false => rw [hp] at ht; cases ht
    | true =>
      rw [hp, if_pos rfl] at ht
      dsimp only [lookup] at ht
      split at ht
      · rename_i hn
        cases ht
        exact ⟨hn.symm, _, rfl, by rw [henv.priority]; exact congrArg some hpr.symm⟩
      · cases ht

/-- All assertions are true of an entry that satisfies the constraints. -/
theorem interpOf_sat {ti : TableInfo} {skip : Str → Res Bool} {ks : List (Str × SymKey)}
    {as : List (Term .bool)} {s : Solver} {cs : List Expr} {entry : RtEntry} {ρ : Env} (h : SolverInv ti skip ks as s cs)
    (hwf : TableWF ti) (hd : NamesDistinct ti) (hcan : CanonicalEntry ti (fun n => skip n = .ok true) entry)
    (henv : EntryEnv ti entry ρ)
    (hcs : ∀ c ∈ cs, ∃ se, Checked (.table ti.keysByName) c se ∧
      SignedHolds (sigOf (.table ti.keysByName)) ρ se) :
    ∀ a ∈ s.assertions, a.den (interpOf ti ρ) = true := by
  obtain ⟨hbase, hcorr⟩ := interpOf_env h hwf hd hcan henv
  obtain ⟨ts, hts, _, h2⟩ := h.assertions
  rw [hts]
  intro a ha
  rcases List.mem_append.1 ha with ha | ha
  · exact hbase a ha
  · obtain ⟨c, hc, src, heval⟩ := h2 a ha
    obtain ⟨se, hch, hholds⟩ := hcs c hc
    obtain ⟨hb, hk⟩ := formula_known hch heval
    obtain ⟨t, ht, hmeans⟩ := formula_means (src := src) hcorr hch hb hk
    rw [heval] at ht
    cases ht
    have := (signed_unique hmeans hholds).2
    simpa using this

theorem namesIn_imp {K K' A A' : Str → Prop} (hK : ∀ n, K n → K' n) (hA : ∀ n, A n → A' n) :
    ∀ s, NamesIn K A s → NamesIn K' A' s := by
  intro s
  induction s with
  | key n => exact hK n
  | attr n => exact hA n
  | not _ ih | neg _ ih => exact ih
  | field _ _ ih => exact ih
  | cmp _ _ _ ih1 ih2 | conn _ _ _ ih1 ih2 => exact fun h => ⟨ih1 h.1, ih2 h.2⟩
  | _ => exact id

theorem known_iff {ti : TableInfo} {skip : Str → Res Bool} {ks : List (Str × SymKey)}
    {as : List (Term .bool)} {s : Solver} {cs : List Expr} (h : SolverInv ti skip ks as s cs)
    (hwf : TableWF ti) (se : SExpr) : Known s.env se ↔ Expressible ti (fun n => skip n = .ok true) se := by
  obtain ⟨hk1, hk2, hk3⟩ := h.key hwf
  have hK : ∀ n, hasKey n s.env.keys = true ↔ ∃ ki, (n, ki) ∈ ti.keysByName ∧ ¬ skip n = .ok true := by
    intro n
    rw [h.env]
    show hasKey n ks = true ↔ _
    unfold hasKey
    rw [Option.isSome_iff_exists]
    constructor
    · rintro ⟨k, hk⟩
      obtain ⟨ki, hmem⟩ := hk2 n k hk
      rcases hk1 n ki hmem with ⟨_, hnone⟩ | ⟨hsf, _⟩
      · rw [hnone] at hk
        cases hk
      · exact ⟨ki, hmem, by rw [hsf]; nofun⟩
    · rintro ⟨ki, hmem, hs⟩
      rcases hk1 n ki hmem with ⟨h, _⟩ | ⟨_, k, a, _, hl, _⟩
      · exact (hs h).elim
      · exact ⟨k, hl⟩
  have hA : ∀ n, hasKey n s.env.attrs = true ↔ n = c!"priority" ∧ HasPriority ti := by
    intro n
    rw [h.env, ← prioritized_iff]
    unfold solverEnv
    cases prioritized ti with
    | false => simp [hasKey, lookup]
    | true =>
      simp only [if_true, hasKey, lookup, and_true]
      by_cases hn : c!"priority" = n
      · rw [if_pos hn]; exact ⟨fun _ => hn.symm, fun _ => rfl⟩
      · rw [if_neg hn]
        refine ⟨(nomatch ·), ?_⟩
        intro h
        exact (hn h.symm).elim
  exact ⟨namesIn_imp (fun n => (hK n).1) (fun n => (hA n).1) se, namesIn_imp (fun n => (hK n).2) (fun n => (hA n).2) se⟩

theorem decides_sat {z : Z3Oracle} (hz : z.Sound) (hd : Z3Oracle.Decides z) {n : Nat} {as : List (Term .bool)}
    {m : Interp} (h : ∀ a ∈ as, a.den m = true) : ∃ val hi, z.check n as = .sat val hi := by
  cases hc : z.check n as with
  | sat val hi => exact ⟨val, hi, rfl⟩
  | unsat =>
    obtain ⟨a, ha, hf⟩ := hz.unsat n as hc m
    rw [h a ha] at hf
    cases hf
  | unknown => exact (hd n as hc).elim

theorem add_complete {z : Z3Oracle} {ti : TableInfo} {skip : Str → Res Bool} {ks : List (Str × SymKey)}
    {as : List (Term .bool)} {s : Solver} {cs : List Expr} {entry : RtEntry} {ρ : Env} (h : SolverInv ti skip ks as s cs)
    (hz : z.Sound) (hdec : Z3Oracle.Decides z)
    (hwf : TableWF ti) (hd : NamesDistinct ti) (hcan : CanonicalEntry ti (fun n => skip n = .ok true) entry)
    (henv : EntryEnv ti entry ρ)
    (hcs : ∀ c ∈ cs, ∃ se, Checked (.table ti.keysByName) c se ∧
      SignedHolds (sigOf (.table ti.keysByName)) ρ se) {c : Expr} {se : SExpr} (hch : Checked (.table ti.keysByName) c se)
    (hb : c.ty = .boolean) (hx : Expressible ti (fun n => skip n = .ok true) se)
    (hh : SignedHolds (sigOf (.table ti.keysByName)) ρ se)
    (src : ConstraintSource) : (s.addConstraint z c src).1 = .ok true := by
  have hsat := interpOf_sat h hwf hd hcan henv hcs
  obtain ⟨_, hcorr⟩ := interpOf_env h hwf hd hcan henv
  obtain ⟨t, ht, hmeans⟩ := formula_means (src := src) hcorr hch hb ((known_iff h hwf se).2 hx)
  have htrue : t.den (interpOf ti ρ) = true := by
    have := (signed_unique hmeans hh).2
    simpa using this
  obtain ⟨v1, h1, hc1⟩ := decides_sat hz hdec (n := s.calls) hsat
  obtain ⟨v2, h2, hc2⟩ := decides_sat hz hdec (n := s.calls + 1) (as := s.assertions ++ [t]) (m := interpOf ti ρ) (by
    intro a ha
    rcases List.mem_append.1 ha with ha | ha
    · exact hsat a ha
    · rw [List.mem_singleton.1 ha]
      exact htrue)
  simp only [Solver.addConstraint, Solver.check, hc1, ht, hc2]

theorem create_complete {z : Z3Oracle} {ti : TableInfo} {skip : Str → Res Bool} {entry : RtEntry} {ρ : Env}
    (hz : z.Sound) (hdec : Z3Oracle.Decides z)
    (hwf : TableWF ti) (hd : NamesDistinct ti) (hsup : KeysSupported ti skip)
    (hcan : CanonicalEntry ti (fun n => skip n = .ok true) entry)
    (henv : EntryEnv ti entry ρ)
    (hc : ∀ c, ti.constraint = some c → ∃ se, Checked (.table ti.keysByName) c se ∧ c.ty = .boolean ∧
      Expressible ti (fun n => skip n = .ok true) se ∧
      SignedHolds (sigOf (.table ti.keysByName)) ρ se) : ∃ s, Solver.create z ti skip = .ok s := by
  obtain ⟨ks, as, hk⟩ := createKeys_total (ordered ti.keysByName) [] [] (skip := skip) (by
    intro n ki hmem
    rcases hsup n ki (ordered_mem.1 hmem) with h | ⟨h, hs⟩
    · exact .inl h
    · exact .inr ⟨h, symSupported_iff.1 hs⟩)
  have h0 : SolverInv ti skip ks as (initSolver ti skip ks as) [] :=
    ⟨hk, rfl, rfl, rfl, [], by simp [initSolver], by simp, by simp⟩
  cases hct : ti.constraint with
  | none => exact ⟨_, create_ok.2 ⟨ks, as, hk, .inl ⟨hct, rfl⟩⟩⟩
  | some c =>
    obtain ⟨se, hch, hb, hx, hh⟩ := hc c hct
    have := add_complete h0 hz hdec hwf hd hcan henv (by simp) hch hb hx hh ti.source
    exact ⟨_, create_ok.2 ⟨ks, as, hk, .inr ⟨c, hct, Prod.ext this rfl⟩⟩⟩

end P4C
