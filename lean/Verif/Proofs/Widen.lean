import Verif.Spec.Widen
import Verif.Proofs.Rename

/-
Keys of wider kinds.
-/

namespace P4C

open Spec

/-- The value `v'` of type `t'` is what the value `v` of type `t` is for a possibly wider kind. -/
inductive ValWidens : Ty → Ty → Value → Value → Prop where
  | same (t : Ty) (v : Value) : ValWidens t t v v
  | exactOptional (w x : Int) : ValWidens (.exact w) (.optionalMatch w) (.exact x) (.ternary x (2 ^ w.toNat - 1))
  | exactTernary (w x : Int) : ValWidens (.exact w) (.ternary w) (.exact x) (.ternary x (2 ^ w.toNat - 1))
  | optionalTernary (w x m : Int) : ValWidens (.optionalMatch w) (.ternary w) (.ternary x m) (.ternary x m)
  | exactLpm (w x : Int) : ValWidens (.exact w) (.lpm w) (.exact x) (.lpm x w)
  | exactRange (w x : Int) : ValWidens (.exact w) (.range w) (.exact x) (.range x x)

theorem valWidens_inj {t t' : Ty} {x x' y y' : Value} (h : ValWidens t t' x x') (g : ValWidens t t' y y') :
    x = y ↔ x' = y' := by
  cases h <;> cases g <;> simp

theorem valWidens_join {a a' b b' t t' : Ty} {v v' w w' : Value} (hv : ValWidens a a' v v') (hw : ValWidens b b' w w')
    (hj : IsJoin a b t) (hj' : IsJoin a' b' t') (sv : HasShape a v) (sw : HasShape b w):
    ValWidens t t' (convert a t v) (convert a' t' v') ∧ ValWidens t t' (convert b t w) (convert b' t' w') := by
  have e := lub_iff.2 hj
  have e' := lub_iff.2 hj'
  cases hv <;> cases hw
  case same.same =>
    cases e.symm.trans e'
    exact ⟨.same _ _, .same _ _⟩
  all_goals simp only [leastUpperBound, strictlyAbove, typeBitwidth] at e e'
  all_goals first
    | (cases sv <;> grind [convert, exactMatch, ValWidens])
    | (cases sw <;> grind [convert, exactMatch, ValWidens])

/-- `Γ'` and `ρ'` are `Γ` and `ρ` with keys of possibly wider kinds. -/
structure EnvWidens (Γ Γ' : Sig) (ρ ρ' : Env) : Prop where
  to : ∀ n t t' v, Γ.key n = some t → Γ'.key n = some t' → ρ.key n = some v →
    HasShape t v ∧ ∃ v', ρ'.key n = some v' ∧ ValWidens t t' v v'
  back : ∀ n t t' v', Γ.key n = some t → Γ'.key n = some t' → ρ'.key n = some v' →
    ∃ v, ρ.key n = some v ∧ HasShape t v ∧ ValWidens t t' v v'
  param : ∀ n, Γ.param n = none
  priority : ρ'.priority = ρ.priority

theorem fieldTy_widens {a a' t t' : Ty} {f : Str} {v v' : Value} (h : ValWidens a a' v v') (h1 : FieldTy a f t)
    (h2 : FieldTy a' f t') : t = t' ∧ ∀ z, FieldVal v f z ↔ FieldVal v' f z := by
  cases h with
  | same => exact ⟨fieldTy_unique h1 h2, fun _ => .rfl⟩
  | exactOptional w x =>
    cases h1; cases h2
    exact ⟨rfl, fun z => ⟨by rintro ⟨⟩; exact .ternaryValue _ _, by rintro ⟨⟩; exact .exactValue _⟩⟩
  | exactTernary w x =>
    cases h1; cases h2
    exact ⟨rfl, fun z => ⟨by rintro ⟨⟩; exact .ternaryValue _ _, by rintro ⟨⟩; exact .exactValue _⟩⟩
  | optionalTernary w x m => cases h1 <;> cases h2 <;> exact ⟨rfl, fun _ => .rfl⟩
  | exactLpm w x =>
    cases h1; cases h2
    exact ⟨rfl, fun z => ⟨by rintro ⟨⟩; exact .lpmValue _ _, by rintro ⟨⟩; exact .exactValue _⟩⟩
  | exactRange w x => cases h1; cases h2

theorem fieldTy_int {a t : Ty} {f : Str} {z : Int} (h : FieldTy a f t) : HasShape t (.int z) := by
  cases h <;> constructor

theorem compareVals_widens {o : Cmp} {t t' : Ty} {x x' y y' : Value} {c : Bool} (h : ValWidens t t' x x')
    (g : ValWidens t t' y y') (ho : o.isOrder = true → Ordered t) (ho' : o.isOrder = true → Ordered t') :
    compareVals o x y = some c ↔ compareVals o x' y' = some c := by
  by_cases hi : o.isOrder = true
  · have h1 := ho hi
    have h2 := ho' hi
    cases h <;> first | (cases g; rfl) | cases h2 | cases h1
  · have e := valWidens_inj h g
    cases o <;> simp [Cmp.isOrder] at hi <;> simp [compareVals, e]

theorem order_widens {t t' : Ty} {x x' : Value} (h : ValWidens t t' x x') (h1 : Ordered t) (h2 : Ordered t') : t = t' := by
  cases h <;> first | rfl | cases h2 | cases h1

theorem evaluates_widens {Γ Γ' : Sig} {ρ ρ' : Env} (hx : EnvWidens Γ Γ' ρ ρ') {s : SExpr} {t t' : Ty} (ht : HasTy Γ s t)
    (ht' : HasTy Γ' s t') :
    (∀ v, Evaluates Γ ρ s t v → HasShape t v ∧ ∃ v', Evaluates Γ' ρ' s t' v' ∧ ValWidens t t' v v') ∧
    (∀ v', Evaluates Γ' ρ' s t' v' → ∃ v, Evaluates Γ ρ s t v ∧ HasShape t v ∧ ValWidens t t' v v') := by
  induction s generalizing t t' with
  | bool b =>
    cases ht; cases ht'
    exact ⟨fun v h => by cases h; exact ⟨.bool _, _, .bool b, .same _ _⟩,
      fun v h => by cases h; exact ⟨_, .bool b, .bool _, .same _ _⟩⟩
  | int z =>
    cases ht; cases ht'
    exact ⟨fun v h => by cases h; exact ⟨.int _, _, .int z, .same _ _⟩,
      fun v h => by cases h; exact ⟨_, .int z, .int _, .same _ _⟩⟩
  | key n =>
    cases ht with
    | key h1 =>
      cases ht' with
      | key h2 =>
        refine ⟨fun v h => ?_, fun v h => ?_⟩
        · cases h with
          | key _ h =>
            obtain ⟨h3, v', h4, h5⟩ := hx.to _ _ _ _ h1 h2 h
            exact ⟨h3, v', .key h2 h4, h5⟩
        · cases h with
          | key _ h =>
            obtain ⟨v, h3, h4, h5⟩ := hx.back _ _ _ _ h1 h2 h
            exact ⟨v, .key h1 h3, h4, h5⟩
  | param n => cases ht with | param h1 => rw [hx.param] at h1; cases h1
  | attr n =>
    cases ht with
    | priority =>
      cases ht'
      exact ⟨fun v h => by cases h with | priority h => exact ⟨.int _, _, .priority (hx.priority.trans h), .same _ _⟩,
        fun v h => by cases h with | priority h => exact ⟨_, .priority (hx.priority.symm.trans h), .int _, .same _ _⟩⟩
  | not e ih =>
    cases ht with
    | not h1 =>
      cases ht' with
      | not h2 =>
        obtain ⟨i1, i2⟩ := ih h1 h2
        refine ⟨fun v h => ?_, fun v h => ?_⟩
        · cases h with
          | not h =>
            obtain ⟨-, v', h4, h5⟩ := i1 _ h
            cases h5
            exact ⟨.bool _, _, .not h4, .same _ _⟩
        · cases h with
          | not h =>
            obtain ⟨v', h4, -, h5⟩ := i2 _ h
            cases h5
            exact ⟨_, .not h4, .bool _, .same _ _⟩
  | neg e ih =>
    cases ht with
    | neg h1 =>
      cases ht' with
      | neg h2 =>
        obtain ⟨i1, i2⟩ := ih h1 h2
        refine ⟨fun v h => ?_, fun v h => ?_⟩
        · cases h with
          | neg h =>
            obtain ⟨-, v', h4, h5⟩ := i1 _ h
            cases h5
            exact ⟨.int _, _, .neg h4, .same _ _⟩
        · cases h with
          | neg h =>
            obtain ⟨v', h4, -, h5⟩ := i2 _ h
            cases h5
            exact ⟨_, .neg h4, .int _, .same _ _⟩
  | conn o l r ih1 ih2 =>
    cases ht with
    | conn h1 h1' =>
      cases ht' with
      | conn h2 h2' =>
        obtain ⟨i1, i2⟩ := ih1 h1 h2
        obtain ⟨j1, j2⟩ := ih2 h1' h2'
        refine ⟨fun v h => ?_, fun v h => ?_⟩
        · cases h with
          | decided h hd =>
            obtain ⟨-, v', h4, h5⟩ := i1 _ h
            cases h5
            exact ⟨.bool _, _, .decided h4 hd, .same _ _⟩
          | conn h h' =>
            obtain ⟨-, v', h4, h5⟩ := i1 _ h
            obtain ⟨-, w', h6, h7⟩ := j1 _ h'
            cases h5; cases h7
            exact ⟨.bool _, _, .conn h4 h6, .same _ _⟩
        · cases h with
          | decided h hd =>
            obtain ⟨v', h4, -, h5⟩ := i2 _ h
            cases h5
            exact ⟨_, .decided h4 hd, .bool _, .same _ _⟩
          | conn h h' =>
            obtain ⟨v', h4, -, h5⟩ := i2 _ h
            obtain ⟨w', h6, -, h7⟩ := j2 _ h'
            cases h5; cases h7
            exact ⟨_, .conn h4 h6, .bool _, .same _ _⟩
  | cmp o l r ih1 ih2 =>
    cases ht with
    | cmp h1 h1' hj ho =>
      cases ht' with
      | cmp h2 h2' hj' ho' =>
        obtain ⟨i1, i2⟩ := ih1 h1 h2
        obtain ⟨j1, j2⟩ := ih2 h1' h2'
        refine ⟨fun v h => ?_, fun v h => ?_⟩
        · cases h with
          | cmp h h' hk hn hc =>
            cases evaluates_hasTy h _ h1
            cases evaluates_hasTy h' _ h1'
            cases isJoin_unique hj hk
            obtain ⟨s1, v', h4, h5⟩ := i1 _ h
            obtain ⟨s2, w', h6, h7⟩ := j1 _ h'
            obtain ⟨k1, k2⟩ := valWidens_join h5 h7 hj hj' s1 s2
            refine ⟨.bool _, _, .cmp h4 h6 hj' (fun e n => ?_) ((compareVals_widens k1 k2 ho ho').1 hc), .same _ _⟩
            rw [← order_widens k1 (ho e) (ho' e)]
            exact hn e n
        · cases h with
          | cmp h h' hk hn hc =>
            cases evaluates_hasTy h _ h2
            cases evaluates_hasTy h' _ h2'
            cases isJoin_unique hj' hk
            obtain ⟨v', h4, s1, h5⟩ := i2 _ h
            obtain ⟨w', h6, s2, h7⟩ := j2 _ h'
            obtain ⟨k1, k2⟩ := valWidens_join h5 h7 hj hj' s1 s2
            refine ⟨_, .cmp h4 h6 hj (fun e n => ?_) ((compareVals_widens k1 k2 ho ho').2 hc), .bool _, .same _ _⟩
            rw [order_widens k1 (ho e) (ho' e)]
            exact hn e n
  | field e f ih =>
    cases ht with
    | field h1 hf =>
      cases ht' with
      | field h2 hf' =>
        obtain ⟨i1, i2⟩ := ih h1 h2
        refine ⟨fun v h => ?_, fun v h => ?_⟩
        · cases h with
          | field h hg hv =>
            cases evaluates_hasTy h _ h1
            obtain ⟨s1, v', h4, h5⟩ := i1 _ h
            obtain ⟨rfl, k⟩ := fieldTy_widens h5 hf hf'
            exact ⟨fieldTy_int hf, _, .field h4 hf' ((k _).1 hv), .same _ _⟩
        · cases h with
          | field h hg hv =>
            cases evaluates_hasTy h _ h2
            obtain ⟨v', h4, s1, h5⟩ := i2 _ h
            obtain ⟨rfl, k⟩ := fieldTy_widens h5 hf hf'
            exact ⟨_, .field h4 hf ((k _).2 hv), fieldTy_int hf, .same _ _⟩

/-! ### Entries -/

theorem keyDecl_same {f f' : MatchField} {v v' : VarInfo} (h : KeyDecl f v) (h' : KeyDecl f' v') (hb : f'.bitwidth = f.bitwidth)
    (hk : f'.kind = f.kind) : v'.ty = v.ty := by
  cases h <;> cases h' <;> simp_all

theorem each_imp {α β : Type} {P Q : α → β → Prop} (hPQ : ∀ a b, P a b → Q a b) {as : List α} {bs : List β} (h : Each P as bs) :
    Each Q as bs := by
  induction h with
  | nil => exact .nil
  | cons h _ ih => exact .cons (hPQ _ _ h) ih

theorem matchDenotes_widens {f f' : MatchField} {v v' : VarInfo} (h : KeyDecl f v) (h' : KeyDecl f' v') (hb : f'.bitwidth = f.bitwidth)
    (hw : 0 ≤ f.bitwidth) {m m' : MatchVal} (hm : MatchWidens f.bitwidth f.kind f'.kind m m') :
    (∀ x, MatchDenotes v.ty m x → ∃ x', MatchDenotes v'.ty m' x' ∧ ValWidens v.ty v'.ty x x') ∧
    (∀ x', MatchDenotes v'.ty m' x' → ∃ x, MatchDenotes v.ty m x ∧ ValWidens v.ty v'.ty x x') := by
  obtain ⟨id, n, w, k⟩ := f
  obtain ⟨id', n', w', k'⟩ := f'
  dsimp only at hb hw hm
  subst hb
  obtain ⟨W, rfl⟩ := Int.eq_ofNat_of_zero_le hw
  cases hm with
  | same =>
    rw [keyDecl_same h h' rfl rfl]
    exact ⟨fun x h => ⟨x, h, .same _ _⟩, fun x h => ⟨x, h, .same _ _⟩⟩
  | exactOptional b =>
    cases h; cases h'
    refine ⟨fun x hx => ?_, fun x hx => ?_⟩
    · cases hx; exact ⟨_, .optional W b, .exactOptional _ _⟩
    · cases hx; exact ⟨_, .exact W b, .exactOptional _ _⟩
  | exactTernary b hm =>
    cases h; cases h'
    refine ⟨fun x hx => ?_, fun x hx => ?_⟩
    · cases hx; exact ⟨_, .ternary W b _, by rw [hm]; exact .exactTernary _ _⟩
    · cases hx; exact ⟨_, .exact W b, by rw [hm]; exact .exactTernary _ _⟩
  | optionalTernary b hm =>
    cases h; cases h'
    refine ⟨fun x hx => ?_, fun x hx => ?_⟩
    · cases hx; exact ⟨_, .ternary W b _, by rw [hm]; exact .optionalTernary _ _ _⟩
    · cases hx; exact ⟨_, .optional W b, by rw [hm]; exact .optionalTernary _ _ _⟩
  | exactLpm b =>
    cases h; cases h'
    refine ⟨fun x hx => ?_, fun x hx => ?_⟩
    · cases hx; exact ⟨_, .lpm W b _, .exactLpm _ _⟩
    · cases hx; exact ⟨_, .exact W b, .exactLpm _ _⟩
  | exactRange b =>
    cases h; cases h'
    refine ⟨fun x hx => ?_, fun x hx => ?_⟩
    · cases hx; exact ⟨_, .range W b _, .exactRange _ _⟩
    · cases hx; exact ⟨_, .exact W b, .exactRange _ _⟩

theorem wildcardOf_widens {f f' : MatchField} {v v' : VarInfo} (h : KeyDecl f v) (h' : KeyDecl f' v') (hf : KeyWidens f f')
    (he : f.kind ≠ .matchType .exact) :
    (∀ x, WildcardOf v.ty x → ∃ x', WildcardOf v'.ty x' ∧ ValWidens v.ty v'.ty x x') ∧
    (∀ x', WildcardOf v'.ty x' → ∃ x, WildcardOf v.ty x ∧ ValWidens v.ty v'.ty x x') := by
  obtain ⟨id, n, w, k⟩ := f
  obtain ⟨id', n', w', k'⟩ := f'
  obtain ⟨h1, h2, h3, h4⟩ := hf
  dsimp only at h1 h2 h3 h4 he
  subst h3
  cases h4 with
  | same =>
    rw [keyDecl_same h h' rfl rfl]
    exact ⟨fun x h => ⟨x, h, .same _ _⟩, fun x h => ⟨x, h, .same _ _⟩⟩
  | optionalTernary =>
    cases h; cases h'
    refine ⟨fun x hx => ?_, fun x hx => ?_⟩
    · cases hx; exact ⟨_, .ternary _, .optionalTernary _ _ _⟩
    · cases hx; exact ⟨_, .optional _, .optionalTernary _ _ _⟩
  | exactOptional | exactTernary | exactLpm | exactRange => exact absurd rfl he

/-- The variables declared by corresponding keys. -/
def VarWidens (d d' : TableDecl) (v v' : VarInfo) : Prop :=
  ∃ f ∈ d.matchFields, ∃ f' ∈ d'.matchFields, KeyDecl f v ∧ KeyDecl f' v' ∧ KeyWidens f f'

theorem varWidens_ids {d d' : TableDecl} {v v' : VarInfo} (h : VarWidens d d' v v') : v'.id = v.id ∧ v'.name = v.name := by
  obtain ⟨f, -, f', -, h1, h2, h3⟩ := h
  rw [(keyDecl_ids h1).1, (keyDecl_ids h1).2, (keyDecl_ids h2).1, (keyDecl_ids h2).2]
  exact ⟨h3.id, h3.name⟩

theorem each_varWidens {fs fs' : List MatchField} (h : Each KeyWidens fs fs') {vs vs' : List VarInfo} (hv : Each KeyDecl fs vs)
    (hv' : Each KeyDecl fs' vs') :
    Each (fun v v' => ∃ f ∈ fs, ∃ f' ∈ fs', KeyDecl f v ∧ KeyDecl f' v' ∧ KeyWidens f f') vs vs' := by
  induction h generalizing vs vs' with
  | nil => cases hv; cases hv'; exact .nil
  | cons h _ ih =>
    cases hv with
    | cons a1 a2 =>
      cases hv' with
      | cons b1 b2 =>
        refine .cons ⟨_, by simp, _, by simp, a1, b1, h⟩ (each_imp (fun v v' hh => ?_) (ih a2 b2))
        obtain ⟨f, g1, f', g2, g3⟩ := hh
        exact ⟨f, by simp [g1], f', by simp [g2], g3⟩

section
variable {d d' : TableDecl} {e e' : RtEntry} (he : EntryWidens d d' e e') (hw : ∀ f ∈ d.matchFields, 0 ≤ f.bitwidth)
include he

theorem fieldIds_widens : e'.matches_.map FieldMatch.fieldId = e.matches_.map FieldMatch.fieldId :=
  each_map_eq (f := FieldMatch.fieldId) (fun _ _ h => h.1) he.matches_

theorem matched_widens (id : Nat) : (∃ m ∈ e'.matches_, m.fieldId = id) ↔ ∃ m ∈ e.matches_, m.fieldId = id := by
  have := fieldIds_widens he
  have h1 : id ∈ e'.matches_.map FieldMatch.fieldId ↔ id ∈ e.matches_.map FieldMatch.fieldId := by rw [this]
  simpa using h1

include hw

theorem keyValue_widens {v v' : VarInfo} (hv : VarWidens d d' v v') :
    (∀ x, KeyValue e v x → ∃ x', KeyValue e' v' x' ∧ ValWidens v.ty v'.ty x x') ∧
    (∀ x', KeyValue e' v' x' → ∃ x, KeyValue e v x ∧ ValWidens v.ty v'.ty x x') := by
  obtain ⟨hi, -⟩ := varWidens_ids hv
  obtain ⟨f, hf, f', hf', h1, h2, h3⟩ := hv
  have i1 := (keyDecl_ids h1).1
  have i2 := (keyDecl_ids h2).1
  have hne : (∀ m ∈ e.matches_, m.fieldId ≠ v.id) → f.kind ≠ .matchType .exact := by
    intro h hk
    obtain ⟨m, g1, g2⟩ := he.present f hf hk
    exact h m g1 (g2.trans i1.symm)
  have hiff : (∀ m ∈ e'.matches_, m.fieldId ≠ v'.id) ↔ ∀ m ∈ e.matches_, m.fieldId ≠ v.id := by
    have := not_congr (matched_widens he v.id)
    rw [hi]
    simpa using this
  refine ⟨fun x hx => ?_, fun x hx => ?_⟩
  · rcases hx with ⟨m, g1, g2, g3⟩ | ⟨g1, g2⟩
    · obtain ⟨m', k1, k2, k3⟩ := each_mem_left he.matches_ m g1
      have k4 := k3 f hf f' hf' (i1.symm.trans g2.symm) (i2.symm.trans (hi.trans g2.symm))
      obtain ⟨x', k5, k6⟩ := (matchDenotes_widens h1 h2 h3.bitwidth (hw f hf) k4).1 x g3
      exact ⟨x', .inl ⟨m', k1, by rw [k2, g2, hi], k5⟩, k6⟩
    · obtain ⟨x', k5, k6⟩ := (wildcardOf_widens h1 h2 h3 (hne g1)).1 x g2
      exact ⟨x', .inr ⟨hiff.2 g1, k5⟩, k6⟩
  · rcases hx with ⟨m', g1, g2, g3⟩ | ⟨g1, g2⟩
    · obtain ⟨m, k1, k2, k3⟩ := each_mem he.matches_ m' g1
      have k4 := k3 f hf f' hf' (by rw [← i1, ← hi, ← g2, k2]) (by rw [← i2, ← g2, k2])
      obtain ⟨x', k5, k6⟩ := (matchDenotes_widens h1 h2 h3.bitwidth (hw f hf) k4).2 x g3
      exact ⟨x', .inl ⟨m, k1, by rw [← hi, ← g2, k2], k5⟩, k6⟩
    · have g1 := hiff.1 g1
      obtain ⟨x', k5, k6⟩ := (wildcardOf_widens h1 h2 h3 (hne g1)).2 x g2
      exact ⟨x', .inr ⟨g1, k5⟩, k6⟩

theorem entryFits_widens {vs vs' : List VarInfo} (hv : Each (VarWidens d d') vs vs') : EntryFits vs e ↔ EntryFits vs' e' := by
  constructor
  · rintro ⟨h1, h2, h3⟩
    refine ⟨fun m' hm' => ?_, by rw [fieldIds_widens he]; exact h2, fun v' hv' => ?_⟩
    · obtain ⟨m, k1, k2, k3⟩ := each_mem he.matches_ m' hm'
      obtain ⟨v, g1, g2, x, g3⟩ := h1 m k1
      obtain ⟨v', g4, g5⟩ := each_mem_left hv v g1
      have hi := (varWidens_ids g5).1
      obtain ⟨f, hf, f', hf', a1, a2, a3⟩ := g5
      have i1 := (keyDecl_ids a1).1
      have i2 := (keyDecl_ids a2).1
      have k4 := k3 f hf f' hf' (i1.symm.trans g2) (i2.symm.trans (hi.trans g2))
      obtain ⟨x', k5, -⟩ := (matchDenotes_widens a1 a2 a3.bitwidth (hw f hf) k4).1 x g3
      exact ⟨v', g4, by rw [hi, g2, k2], x', k5⟩
    · obtain ⟨v, g1, g2⟩ := each_mem hv v' hv'
      have hi := (varWidens_ids g2).1
      rw [hi]
      by_cases hm : ∃ m ∈ e.matches_, m.fieldId = v.id
      · exact .inl ((matched_widens he v.id).2 hm)
      · rcases h3 v g1 with h | ⟨x, hx⟩
        · exact absurd h hm
        · obtain ⟨x', k, -⟩ := (keyValue_widens he hw g2).1 x (.inr ⟨by simpa using hm, hx⟩)
          rcases k with ⟨m, k1, k2, -⟩ | k
          · exact .inl ⟨m, k1, by rw [k2, hi]⟩
          · exact .inr ⟨x', k.2⟩
  · rintro ⟨h1, h2, h3⟩
    refine ⟨fun m hm => ?_, by rw [← fieldIds_widens he]; exact h2, fun v hv' => ?_⟩
    · obtain ⟨m', k1, k2, k3⟩ := each_mem_left he.matches_ m hm
      obtain ⟨v', g1, g2, x, g3⟩ := h1 m' k1
      obtain ⟨v, g4, g5⟩ := each_mem hv v' g1
      have hi := (varWidens_ids g5).1
      obtain ⟨f, hf, f', hf', a1, a2, a3⟩ := g5
      have i1 := (keyDecl_ids a1).1
      have i2 := (keyDecl_ids a2).1
      have k4 := k3 f hf f' hf' (by rw [← i1, ← hi, g2, k2]) (by rw [← i2, g2, k2])
      obtain ⟨x', k5, -⟩ := (matchDenotes_widens a1 a2 a3.bitwidth (hw f hf) k4).2 x g3
      exact ⟨v, g4, by rw [← hi, g2, k2], x', k5⟩
    · obtain ⟨v', g1, g2⟩ := each_mem_left hv v hv'
      have hi := (varWidens_ids g2).1
      by_cases hm : ∃ m ∈ e.matches_, m.fieldId = v.id
      · exact .inl hm
      · have hm' : ¬ ∃ m ∈ e'.matches_, m.fieldId = v'.id := by rw [hi, matched_widens he]; exact hm
        rcases h3 v' g1 with h | ⟨x, hx⟩
        · exact absurd h hm'
        · obtain ⟨x', k, -⟩ := (keyValue_widens he hw g2).2 x (.inr ⟨by simpa using hm', hx⟩)
          rcases k with ⟨m, k1, k2, -⟩ | k
          · exact .inl ⟨m, k1, k2⟩
          · exact .inr ⟨x', k.2⟩

theorem entryMeans_widens {vs vs' : List VarInfo} (hv : Each (VarWidens d d') vs vs') (hd : Distinct vs) (hd' : Distinct vs')
    {ρ ρ' : Env} (h : EntryMeans vs e ρ) (h' : EntryMeans vs' e' ρ') : EnvWidens (keySig vs) (keySig vs') ρ ρ' := by
  refine ⟨fun n t t' x h1 h2 h3 => ?_, fun n t t' x h1 h2 h3 => ?_, fun _ => rfl, by rw [h.priority, h'.priority, he.priority]⟩
  · obtain ⟨v, g1, rfl, g3⟩ := (h.key n x).1 h3
    rw [keySig_of_mem hd g1] at h1
    cases h1
    obtain ⟨v', k1, k2⟩ := each_mem_left hv v g1
    have hn := (varWidens_ids k2).2
    rw [← hn, keySig_of_mem hd' k1] at h2
    cases h2
    obtain ⟨x', k3, k4⟩ := (keyValue_widens he hw k2).1 x g3
    exact ⟨keyValue_shape g3, x', (h'.key _ _).2 ⟨v', k1, hn, k3⟩, k4⟩
  · obtain ⟨v', g1, rfl, g3⟩ := (h'.key n x).1 h3
    rw [keySig_of_mem hd' g1] at h2
    cases h2
    obtain ⟨v, k1, k2⟩ := each_mem hv v' g1
    have hn := (varWidens_ids k2).2
    rw [hn, keySig_of_mem hd k1] at h1
    cases h1
    obtain ⟨x', k3, k4⟩ := (keyValue_widens he hw k2).2 x g3
    exact ⟨x', (h.key _ _).2 ⟨v, k1, hn.symm, k3⟩, keyValue_shape k3, k4⟩

end

/-! ### Programs -/

theorem readConstraint_ty {pton : Str → Option Bytes} {k : ConstraintKind} {Γ : Sig} {p : Preamble} {src : ConstraintSource}
    {e : Expr} {s : SExpr} {t : Ty} (h : ReadConstraint pton k Γ p (some (src, e, s, t))) : HasTy Γ s t := by
  cases h with | some _ _ _ _ h => exact h

/-- The same constraint, read with other declarations. -/
theorem readConstraint_again {pton : Str → Option Bytes} {k : ConstraintKind} {Γ Γ' : Sig} {p : Preamble} {src : ConstraintSource}
    {e : Expr} {s : SExpr} {t : Ty} (h : ReadConstraint pton k Γ p (some (src, e, s, t)))
    {r : Option (ConstraintSource × Expr × SExpr × Ty)} (h' : ReadConstraint pton k Γ' p r) :
    ∃ t', ReadConstraint pton k Γ' p (some (src, e, s, t')) := by
  cases h with
  | some h1 h2 h3 h4 h5 =>
    cases h' with
    | none g1 => cases attached_unique h1 g1
    | some g1 g2 g3 g4 g5 =>
      cases attached_unique h1 g1
      have e2 := tokenize_iff.2 h2
      have e2' := tokenize_iff.2 g2
      subst e2; subst e2'
      have e3 : parseConstraint ⟨pton⟩ k _ = .ok _ := parseConstraint_iff.2 h3
      cases e3.symm.trans (parseConstraint_iff.2 g3)
      cases h4.symm.trans g4
      exact ⟨_, .some g1 g2 g3 g4 g5⟩

theorem tableValue_widens {pton : Str → Option Bytes} {d d' : TableDecl} (hd : TableWidens d d') (gd : GoodTable pton d)
    (gd' : GoodTable pton d') (hw : ∀ f ∈ d.matchFields, 0 ≤ f.bitwidth) {e e' : RtEntry} (he : EntryWidens d d' e e')
    (b : Bool) : TableValue pton d e b ↔ TableValue pton d' e' b := by
  obtain ⟨vs, r, h1, h2, h3⟩ := gd
  obtain ⟨vs', r', h1', h2', h3'⟩ := gd'
  have hv : Each (VarWidens d d') vs vs' := each_varWidens hd.keys h1 h1'
  have hfit := entryFits_widens he hw hv
  constructor
  · rintro ⟨us, src, c, s, ρ, k1, k2, k3, k4, k5⟩
    cases each_unique (R := KeyDecl) (fun _ _ _ => keyDecl_unique) h1 k1
    obtain ⟨ρ', hρ'⟩ := entryMeans_some h2' (hfit.1 k3)
    obtain ⟨t', h4⟩ : ∃ t', ReadConstraint pton .table (keySig vs') d'.preamble (some (src, c, s, t')) := by
      rw [hd.preamble] at h3' ⊢
      exact readConstraint_again k2 h3'
    obtain ⟨-, v', g1, g2⟩ := (evaluates_widens (entryMeans_widens he hw hv h2 h2' k4 hρ') (readConstraint_ty k2)
      (readConstraint_ty h4)).1 _ k5
    cases g2
    exact ⟨vs', src, c, s, ρ', h1', h4, hfit.1 k3, hρ', g1⟩
  · rintro ⟨us, src, c, s, ρ', k1, k2, k3, k4, k5⟩
    cases each_unique (R := KeyDecl) (fun _ _ _ => keyDecl_unique) h1' k1
    obtain ⟨ρ, hρ⟩ := entryMeans_some h2 (hfit.2 k3)
    obtain ⟨t', h4⟩ : ∃ t', ReadConstraint pton .table (keySig vs) d.preamble (some (src, c, s, t')) := by
      rw [hd.preamble] at k2
      exact readConstraint_again k2 h3
    obtain ⟨v, g1, -, g2⟩ := (evaluates_widens (entryMeans_widens he hw hv h2 h2' hρ k4) (readConstraint_ty h4)
      (readConstraint_ty k2)).2 _ k5
    cases g2
    exact ⟨vs, src, c, s, ρ, h1, h4, hfit.2 k3, hρ, g1⟩

theorem actionsAccepted_same {pton : Str → Option Bytes} {p p' : P4Info} (h : p'.actions = p.actions) (a : Option TableAction) :
    ActionsAccepted pton p a ↔ ActionsAccepted pton p' a := by
  have e : ∀ a, ActionAccepted pton p a ↔ ActionAccepted pton p' a := fun a => by unfold ActionAccepted; rw [h]
  constructor
  · rintro (_ | g | g)
    · exact .none
    · exact .one ((e _).1 g)
    · exact .set fun a ha => (e _).1 (g a ha)
  · rintro (_ | g | g)
    · exact .none
    · exact .one ((e _).2 g)
    · exact .set fun a ha => (e _).2 (g a ha)

theorem accepted_widens {pton : Str → Option Bytes} {p p' : P4Info} (hp : ProgramWidens p p')
    (gt : ∀ d ∈ p.tables, GoodTable pton d) (gt' : ∀ d ∈ p'.tables, GoodTable pton d)
    (hn : (p.tables.map fun d => d.preamble.id).Nodup) (hw : NonNegProgram p) {d d' : TableDecl} (hd : d ∈ p.tables)
    (hd' : d' ∈ p'.tables) {e e' : RtEntry} (hid : d.preamble.id = e.tableId) (hid' : d'.preamble.id = e.tableId)
    (he : EntryWidens d d' e e') : Accepted pton p e ↔ Accepted pton p' e' := by
  have hn' : (p'.tables.map fun d => d.preamble.id).Nodup := by
    rw [each_map_eq (f := fun d => d.preamble.id) (fun a b h => by rw [h.preamble]) hp.tables]; exact hn
  have hdd : TableWidens d d' := by
    obtain ⟨x, h1, h2⟩ := each_mem_left hp.tables d hd
    cases inj_of_nodup_map hn' h1 hd' (by rw [h2.preamble, hid, hid'])
    exact h2
  have hv := tableValue_widens hdd (gt d hd) (gt' d' hd') (hw.1 d hd) he true
  constructor
  · rintro ⟨x, h1, h2, h3, h4⟩
    cases inj_of_nodup_map hn h1 hd (h2.trans hid.symm)
    exact ⟨d', hd', hid'.trans he.tableId.symm, by rwa [hdd.preamble, ← hv],
      by rw [he.action]; exact (actionsAccepted_same hp.actions _).1 h4⟩
  · rintro ⟨x, h1, h2, h3, h4⟩
    cases inj_of_nodup_map hn' h1 hd' (h2.trans (he.tableId.trans hid'.symm))
    exact ⟨d, hd, hid, by rwa [hdd.preamble, ← hv] at h3, by rw [he.action] at h4; exact (actionsAccepted_same hp.actions _).2 h4⟩

/-! ### Ternary keys in place of optional ones -/

/-- The type of a key, ternary if it was optional. -/
def ternaryTy : Ty → Ty
  | .optionalMatch w => .ternary w
  | t => t

theorem keyDecl_ternary {f : MatchField} {v : VarInfo} (h : KeyDecl f v) :
    KeyDecl (ternaryKey f) ⟨v.id, v.name, ternaryTy v.ty⟩ := by
  cases h <;> constructor

theorem keyWidens_ternary (f : MatchField) : KeyWidens f (ternaryKey f) := by
  obtain ⟨id, n, w, k⟩ := f
  rcases k with _ | t | _
  · exact ⟨rfl, rfl, rfl, .same _⟩
  · cases t
    case optional => exact ⟨rfl, rfl, rfl, .optionalTernary⟩
    all_goals exact ⟨rfl, rfl, rfl, .same _⟩
  · exact ⟨rfl, rfl, rfl, .same _⟩

theorem isJoin_ternary {a b t : Ty} (h : IsJoin a b t) : IsJoin (ternaryTy a) (ternaryTy b) (ternaryTy t) := by
  rw [← lub_iff] at h ⊢
  cases a <;> cases b <;> simp only [leastUpperBound, strictlyAbove, typeBitwidth, ternaryTy] at h ⊢ <;> grind [ternaryTy]

theorem hasTy_ternary {Γ Γ' : Sig} (hk : ∀ n t, Γ.key n = some t → Γ'.key n = some (ternaryTy t)) (hp : ∀ n, Γ.param n = none)
    {s : SExpr} {t : Ty} (h : HasTy Γ s t) : HasTy Γ' s (ternaryTy t) := by
  induction h with
  | bool b => exact .bool b
  | int z => exact .int z
  | key h1 h2 =>
    refine .key (hk _ _ h1) ?_
    rename_i t
    cases t <;> simp_all [Supported, ternaryTy]
  | param h1 h2 => rw [hp] at h1; cases h1
  | priority => exact .priority
  | not _ ih => exact .not ih
  | neg _ ih => exact .neg ih
  | conn _ _ ih1 ih2 => exact .conn ih1 ih2
  | cmp _ _ h1 h2 ih1 ih2 =>
    refine .cmp ih1 ih2 (isJoin_ternary h1) fun e => ?_
    cases h2 e <;> constructor
  | field _ h1 ih =>
    cases h1 <;> first | exact .field ih (by constructor) | skip

theorem goodTable_ternary {pton : Str → Option Bytes} {d : TableDecl} (h : GoodTable pton d) :
    GoodTable pton { d with matchFields := d.matchFields.map ternaryKey } := by
  obtain ⟨vs, r, h1, h2, h3⟩ := h
  let y : VarInfo → VarInfo := fun v => ⟨v.id, v.name, ternaryTy v.ty⟩
  have hd : Distinct (vs.map y) := by
    refine ⟨?_, ?_⟩
    · rw [List.map_map]; exact h2.1
    · rw [List.map_map]; exact h2.2
  have hk : ∀ n t, (keySig vs).key n = some t → (keySig (vs.map y)).key n = some (ternaryTy t) := by
    intro n t hn
    obtain ⟨v, g1, rfl, rfl⟩ := keySig_mem_ty hn
    exact keySig_of_mem (ki := y v) hd (List.mem_map_of_mem g1)
  refine ⟨vs.map y, ?_⟩
  have hv := each_map (x := ternaryKey) (y := y) (fun _ _ => keyDecl_ternary) h1
  cases h3 with
  | none h => exact ⟨_, hv, hd, .none h⟩
  | some g1 g2 g3 g4 g5 => exact ⟨_, hv, hd, .some g1 g2 g3 g4 (hasTy_ternary hk (fun _ => rfl) g5)⟩

theorem each_self {α : Type} {P : α → α → Prop} {x : α → α} (h : ∀ a, P a (x a)) : ∀ l : List α, Each P l (l.map x)
  | [] => .nil
  | a :: l => .cons (h a) (each_self h l)

theorem programWidens_ternary (p : P4Info) : ProgramWidens p (ternaryForOptional p) :=
  ⟨each_self (fun _ => ⟨rfl, each_self keyWidens_ternary _⟩) _, rfl⟩

theorem p4ToConstraintInfo_ternary {sys : Sys} {p : P4Info} (h : ∃ ci, p4ToConstraintInfo sys p = .ok ci) :
    ∃ ci', p4ToConstraintInfo sys (ternaryForOptional p) = .ok ci' := by
  obtain ⟨h1, h2, h3, h4⟩ := p4ToConstraintInfo_succeeds.1 h
  refine p4ToConstraintInfo_succeeds.2 ⟨?_, h2, fun d' hd => ?_, h4⟩
  · simpa [ternaryForOptional, Function.comp_def] using h1
  · obtain ⟨d, g1, rfl⟩ := List.mem_map.1 hd
    exact goodTable_ternary (h3 d g1)

/-! ### There is such an entry -/

theorem bytes_exists (n : Nat) : ∃ b : Bytes, bytesNat b = n := by
  obtain ⟨b, -, h, -⟩ := z3ToBytes_spec (BitVec.ofNat (n + 1) n)
  refine ⟨b, h.trans ?_⟩
  rw [BitVec.toNat_ofNat]
  exact Nat.mod_eq_of_lt (Nat.lt_of_lt_of_le Nat.lt_two_pow_self (Nat.pow_le_pow_right (by decide) (by omega)))

theorem matchWidens_exists {f f' : MatchField} {v : VarInfo} (h : KeyDecl f v) (hf : KeyWidens f f') (hw : 0 ≤ f.bitwidth)
    {m : MatchVal} {x : Value} (hm : MatchDenotes v.ty m x) : ∃ m', MatchWidens f.bitwidth f.kind f'.kind m m' := by
  obtain ⟨id, n, w, k⟩ := f
  obtain ⟨id', n', w', k'⟩ := f'
  obtain ⟨h1, h2, h3, h4⟩ := hf
  dsimp only at h1 h2 h3 h4 hw ⊢
  obtain ⟨W, rfl⟩ := Int.eq_ofNat_of_zero_le hw
  obtain ⟨b, hb⟩ : ∃ b : Bytes, (bytesNat b : Int) = 2 ^ (W : Int).toNat - 1 := by
    obtain ⟨b, hb⟩ := bytes_exists (2 ^ W - 1)
    have : 0 < 2 ^ W := Nat.pow_pos (by decide)
    exact ⟨b, by rw [hb, Int.ofNat_sub this, Int.toNat_natCast]; norm_cast⟩
  cases h4 with
  | same => exact ⟨_, .same _ _⟩
  | exactOptional => cases h; cases hm; exact ⟨_, .exactOptional _⟩
  | exactTernary => cases h; cases hm; exact ⟨_, .exactTernary _ hb⟩
  | optionalTernary => cases h; cases hm; exact ⟨_, .optionalTernary _ hb⟩
  | exactLpm => cases h; cases hm; exact ⟨_, .exactLpm _⟩
  | exactRange => cases h; cases hm; exact ⟨_, .exactRange _⟩

theorem entryWidens_exists {d d' : TableDecl} (hd : TableWidens d d') {vs : List VarInfo} (hv : Each KeyDecl d.matchFields vs)
    (hn : Distinct vs) (hw : ∀ f ∈ d.matchFields, 0 ≤ f.bitwidth) {e : RtEntry} (he : EntryFits vs e) :
    ∃ e', EntryWidens d d' e e' := by
  have hn1 : (d.matchFields.map fun f => f.id).Nodup := by
    rw [← each_map_eq (f := fun f : MatchField => f.id) (g := VarInfo.id) (fun a b h => (keyDecl_ids h).1) hv]; exact hn.1
  have hn2 : (d'.matchFields.map fun f => f.id).Nodup := by
    rw [each_map_eq (f := fun f : MatchField => f.id) (fun a b h => h.id) hd.keys]; exact hn1
  obtain ⟨ms, hms⟩ := each_exists (as := e.matches_) (R := fun m (m' : FieldMatch) => m'.fieldId = m.fieldId ∧
      ∀ f ∈ d.matchFields, ∀ f' ∈ d'.matchFields, f.id = m.fieldId → f'.id = m.fieldId →
        MatchWidens f.bitwidth f.kind f'.kind m.val m'.val) (fun m hm => by
    obtain ⟨v, h1, h2, x, h3⟩ := he.known m hm
    obtain ⟨f, g1, g2⟩ := each_mem hv v h1
    obtain ⟨f', g3, g4⟩ := each_mem_left hd.keys f g1
    obtain ⟨m', hm'⟩ := matchWidens_exists g2 g4 (hw f g1) h3
    have i1 : f.id = m.fieldId := (keyDecl_ids g2).1.symm.trans h2
    refine ⟨⟨m.fieldId, m'⟩, rfl, fun x hx x' hx' e1 e2 => ?_⟩
    cases inj_of_nodup_map hn1 hx g1 (e1.trans i1.symm)
    cases inj_of_nodup_map hn2 hx' g3 (by rw [e2, g4.id, i1])
    exact hm')
  refine ⟨{ e with matches_ := ms }, rfl, rfl, rfl, hms, fun f hf hk => ?_⟩
  obtain ⟨v, h1, h2⟩ := each_mem_left hv f hf
  rcases he.complete v h1 with ⟨m, g1, g2⟩ | ⟨x, g⟩
  · exact ⟨m, g1, g2.trans (keyDecl_ids h2).1⟩
  · cases h2 <;> cases hk
    cases g

/-! ### Masks -/

theorem evaluates_mask {Γ : Sig} {ρ : Env} {n : Str} {W : Nat} {t : Ty} {x m : Int} (ht : t = .ternary W ∨ t = .optionalMatch W)
    (hk : Γ.key n = some t) (hv : ρ.key n = some (.ternary x m)) :
    Evaluates Γ ρ (exactOrWildcard n) .boolean (.bool true) ↔ m = 0 ∨ m = 2 ^ W - 1 := by
  have hf : FieldTy t c!"mask" (.fixedUnsigned W) := by
    rcases ht with rfl | rfl
    · exact .ternaryMask _
    · exact .optionalMask _
  have h1 : Evaluates Γ ρ (.field (.key n) c!"mask") (.fixedUnsigned W) (.int m) := .field (.key hk hv) hf (.ternaryMask _ _)
  have hp : (0 : Int) < 2 ^ W := Int.pow_pos (by decide)
  have h2 : Evaluates Γ ρ (.cmp .eq (.field (.key n) c!"mask") (.int 0)) .boolean (.bool (decide (m = 0))) :=
    .cmp h1 (.int 0) (join_bit _) nofun (by simp [compareVals, convert])
  have h3 : Evaluates Γ ρ (.cmp .eq (.field (.key n) c!"mask") (.neg (.int 1))) .boolean (.bool (decide (m = 2 ^ W - 1))) := by
    refine .cmp h1 (.neg (.int 1)) (join_bit _) nofun ?_
    have : (-1 : Int) % 2 ^ W = 2 ^ W - 1 := by
      rw [← Int.add_mul_emod_self_left (-1) (2 ^ W) 1]
      rw [Int.emod_eq_of_lt] <;> omega
    have c : convert .arbitraryInt (.fixedUnsigned W) (.int (-1)) = .int ((-1 : Int) % 2 ^ W) := by simp [convert]
    rw [c, this]
    simp [compareVals, convert]
  have h4 := Evaluates.conn (o := .or) h2 h3
  constructor
  · intro h
    have := (evaluates_unique h h4).2
    rw [Value.bool.injEq] at this
    rcases Bool.or_eq_true_iff.1 this.symm with h | h
    · exact .inl (of_decide_eq_true h)
    · exact .inr (of_decide_eq_true h)
  · intro h
    have e : Conn.apply .or (decide (m = 0)) (decide (m = 2 ^ W - 1)) = true :=
      Bool.or_eq_true_iff.2 (h.imp decide_eq_true decide_eq_true)
    rw [e] at h4
    exact h4

theorem nonNeg_widens {p p' : P4Info} (hp : ProgramWidens p p') (hw : NonNegProgram p) : NonNegProgram p' := by
  refine ⟨fun d' hd f' hf => ?_, hp.actions ▸ hw.2⟩
  obtain ⟨d, h1, h2⟩ := each_mem hp.tables d' hd
  obtain ⟨f, h3, h4⟩ := each_mem h2.keys f' hf
  rw [h4.bitwidth]
  exact hw.1 d h1 f h3

end P4C
