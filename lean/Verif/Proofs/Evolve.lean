import Verif.Spec.Evolve
import Verif.Proofs.ComposeVerdict
import Verif.Proofs.Violation
import Verif.Proofs.Accept
import Verif.Proofs.Solve

/-
What constraints say depends only on the keys and parameters they mention.
-/

namespace P4C

open Spec

/-- `Γ'` declares what `Γ` declares, and `ρ'` agrees with `ρ` on it. -/
structure Extends (Γ Γ' : Sig) (ρ ρ' : Env) : Prop where
  key : ∀ n t, Γ.key n = some t → Γ'.key n = some t ∧ ρ'.key n = ρ.key n
  param : ∀ n t, Γ.param n = some t → Γ'.param n = some t ∧ ρ'.param n = ρ.param n
  priority : ρ'.priority = ρ.priority

theorem hasTy_extends {Γ Γ' : Sig} (hk : ∀ n t, Γ.key n = some t → Γ'.key n = some t)
    (hp : ∀ n t, Γ.param n = some t → Γ'.param n = some t) {s : SExpr} {t : Ty} (h : HasTy Γ s t) : HasTy Γ' s t := by
  induction h with
  | bool b => exact .bool b
  | int z => exact .int z
  | key h1 h2 => exact .key (hk _ _ h1) h2
  | param h1 h2 => exact .param (hp _ _ h1) h2
  | priority => exact .priority
  | not _ ih => exact .not ih
  | neg _ ih => exact .neg ih
  | conn _ _ ih1 ih2 => exact .conn ih1 ih2
  | cmp _ _ h1 h2 ih1 ih2 => exact .cmp ih1 ih2 h1 h2
  | field _ h1 ih => exact .field ih h1

section
variable {Γ Γ' : Sig} {ρ ρ' : Env} (hx : Extends Γ Γ' ρ ρ')
include hx

theorem evaluates_extends {s : SExpr} {t : Ty} {v : Value} (h : Evaluates Γ ρ s t v) : Evaluates Γ' ρ' s t v := by
  induction h with
  | bool b => exact .bool b
  | int z => exact .int z
  | key h1 h2 => exact .key (hx.key _ _ h1).1 ((hx.key _ _ h1).2.trans h2)
  | param h1 h2 => exact .param (hx.param _ _ h1).1 ((hx.param _ _ h1).2.trans h2)
  | priority h1 => exact .priority (hx.priority.trans h1)
  | not _ ih => exact .not ih
  | neg _ ih => exact .neg ih
  | decided _ h1 ih => exact .decided ih h1
  | conn _ _ ih1 ih2 => exact .conn ih1 ih2
  | cmp _ _ h1 h2 h3 ih1 ih2 => exact .cmp ih1 ih2 h1 h2 h3
  | field _ h1 h2 ih => exact .field ih h1 h2

theorem evaluates_restricts {s : SExpr} {t u : Ty} {v : Value} (h : Evaluates Γ' ρ' s t v) (ht : HasTy Γ s u) :
    Evaluates Γ ρ s t v := by
  induction h generalizing u with
  | bool b => exact .bool b
  | int z => exact .int z
  | key h1 h2 =>
    cases ht with
    | key h3 =>
      obtain ⟨h4, h5⟩ := hx.key _ _ h3
      rw [h4] at h1
      cases h1
      exact .key h3 (h5.symm.trans h2)
  | param h1 h2 =>
    cases ht with
    | param h3 =>
      obtain ⟨h4, h5⟩ := hx.param _ _ h3
      rw [h4] at h1
      cases h1
      exact .param h3 (h5.symm.trans h2)
  | priority h1 => exact .priority (hx.priority.symm.trans h1)
  | not _ ih => cases ht with | not h1 => exact .not (ih h1)
  | neg _ ih => cases ht with | neg h1 => exact .neg (ih h1)
  | decided _ h1 ih => cases ht with | conn h2 h3 => exact .decided (ih h2) h1
  | conn _ _ ih1 ih2 => cases ht with | conn h2 h3 => exact .conn (ih1 h2) (ih2 h3)
  | cmp _ _ h1 h2 h3 ih1 ih2 => cases ht with | cmp h4 h5 => exact .cmp (ih1 h4) (ih2 h5) h1 h2 h3
  | field _ h1 h2 ih => cases ht with | field h3 => exact .field (ih h3) h1 h2

theorem valued_extends {e : Expr} {b : Bool} (h : Valued Γ ρ e b) : Valued Γ' ρ' e b :=
  h.imp fun _ h => ⟨h.1, evaluates_extends hx h.2⟩

end

/-- The tree has abstract syntax with a type. -/
def Typable (Γ : Sig) (e : Expr) : Prop := ∃ s t, abs e = some s ∧ HasTy Γ s t

theorem typable_not {Γ : Sig} {i : Info} {e : Expr} (h : Typable Γ (.boolNeg i e)) : Typable Γ e := by
  obtain ⟨s, t, h1, h2⟩ := h
  simp only [abs, Option.map_eq_some_iff] at h1
  obtain ⟨u, h1, rfl⟩ := h1
  cases h2 with | not h2 => exact ⟨u, _, h1, h2⟩

theorem typable_neg {Γ : Sig} {i : Info} {e : Expr} (h : Typable Γ (.arithNeg i e)) : Typable Γ e := by
  obtain ⟨s, t, h1, h2⟩ := h
  simp only [abs, Option.map_eq_some_iff] at h1
  obtain ⟨u, h1, rfl⟩ := h1
  cases h2 with | neg h2 => exact ⟨u, _, h1, h2⟩

theorem typable_field {Γ : Sig} {i : Info} {e : Expr} {f : Str} (h : Typable Γ (.field i e f)) : Typable Γ e := by
  obtain ⟨s, t, h1, h2⟩ := h
  simp only [abs, Option.map_eq_some_iff] at h1
  obtain ⟨u, h1, rfl⟩ := h1
  cases h2 with | field h2 => exact ⟨u, _, h1, h2⟩

theorem typable_bin {Γ : Sig} {i : Info} {op : BinOp} {l r : Expr} (h : Typable Γ (.bin i op l r)) :
    Typable Γ l ∧ Typable Γ r := by
  obtain ⟨s, t, h1, h2⟩ := h
  simp only [abs, Option.bind_eq_some_iff] at h1
  obtain ⟨a, h3, b, h4, h5⟩ := h1
  cases op <;> simp only [binop, Option.some.injEq, reduceCtorEq] at h5 <;> subst h5 <;> cases h2 <;>
    exact ⟨⟨_, _, h3, by assumption⟩, ⟨_, _, h4, by assumption⟩⟩

theorem explained_typable {Γ : Sig} {Γ' : Sig} {ρ : Env} {e y : Expr} (h : Explained Γ' ρ e y) (ht : Typable Γ e) : Typable Γ y := by
  induction h with
  | const => exact ht
  | cmp => exact ht
  | not _ ih => exact ih (typable_not ht)
  | neither => exact ht
  | left _ _ _ _ _ _ ih => exact ih (typable_bin ht).1
  | right _ _ _ _ _ _ ih => exact ih (typable_bin ht).2
  | bothLeft _ _ _ _ _ _ _ _ _ _ ih1 ih2 => exact ih1 (typable_bin ht).1
  | bothRight _ _ _ _ _ _ _ _ _ _ ih1 ih2 => exact ih2 (typable_bin ht).2

theorem typable_mentions {Γ : Sig} {y : Expr} {k : Str} (h : Typable Γ y) (hm : Mentions y k) :
    (∃ t, Γ.key k = some t) ∨ ∃ t, Γ.param k = some t := by
  induction y with
  | key i n =>
    obtain ⟨s, t, h1, h2⟩ := h
    simp only [abs, Option.some.injEq] at h1
    subst h1
    cases hm
    cases h2 with | key h2 => exact .inl ⟨_, h2⟩
  | actionParam i n =>
    obtain ⟨s, t, h1, h2⟩ := h
    simp only [abs, Option.some.injEq] at h1
    subst h1
    cases hm
    cases h2 with | param h2 => exact .inr ⟨_, h2⟩
  | boolNeg i e ih => exact ih (typable_not h) hm
  | arithNeg i e ih => exact ih (typable_neg h) hm
  | field i e f ih => exact ih (typable_field h) hm
  | typeCast i e ih =>
    obtain ⟨s, t, h1, h2⟩ := h
    simp [abs] at h1
  | bin i op l r ih1 ih2 =>
    rcases hm with hm | hm
    · exact ih1 (typable_bin h).1 hm
    · exact ih2 (typable_bin h).2 hm
  | _ => exact hm.elim

section
variable {Γ Γ' : Sig} {ρ ρ' : Env} (hx : Extends Γ Γ' ρ ρ')
include hx

theorem valued_restricts {e : Expr} {b : Bool} (ht : Typable Γ e) (h : Valued Γ' ρ' e b) : Valued Γ ρ e b := by
  obtain ⟨s, h1, h2⟩ := h
  obtain ⟨s', t, h3, h4⟩ := ht
  rw [h1] at h3
  cases h3
  exact ⟨s, h1, evaluates_restricts hx h2 h4⟩

theorem explained_extends {e y : Expr} (h : Explained Γ ρ e y) : Explained Γ' ρ' e y := by
  induction h with
  | const i b => exact .const i b
  | cmp h => exact .cmp h
  | not _ ih => exact .not ih
  | neither h1 h2 h3 h4 h5 => exact .neither h1 (valued_extends hx h2) (valued_extends hx h3) h4 h5
  | left h1 h2 h3 h4 h5 _ ih => exact .left h1 (valued_extends hx h2) (valued_extends hx h3) h4 h5 ih
  | right h1 h2 h3 h4 h5 _ ih => exact .right h1 (valued_extends hx h2) (valued_extends hx h3) h4 h5 ih
  | bothLeft h1 h2 h3 h4 h5 _ _ h6 h7 h8 ih1 ih2 =>
    exact .bothLeft h1 (valued_extends hx h2) (valued_extends hx h3) h4 h5 ih1 ih2 h6 h7 h8
  | bothRight h1 h2 h3 h4 h5 _ _ h6 h7 h8 ih1 ih2 =>
    exact .bothRight h1 (valued_extends hx h2) (valued_extends hx h3) h4 h5 ih1 ih2 h6 h7 h8

theorem explained_restricts {e y : Expr} (h : Explained Γ' ρ' e y) (ht : Typable Γ e) : Explained Γ ρ e y := by
  induction h with
  | const i b => exact .const i b
  | cmp h => exact .cmp h
  | not _ ih => exact .not (ih (typable_not ht))
  | neither h1 h2 h3 h4 h5 =>
    obtain ⟨g1, g2⟩ := typable_bin ht
    exact .neither h1 (valued_restricts hx g1 h2) (valued_restricts hx g2 h3) h4 h5
  | left h1 h2 h3 h4 h5 _ ih =>
    obtain ⟨g1, g2⟩ := typable_bin ht
    exact .left h1 (valued_restricts hx g1 h2) (valued_restricts hx g2 h3) h4 h5 (ih g1)
  | right h1 h2 h3 h4 h5 _ ih =>
    obtain ⟨g1, g2⟩ := typable_bin ht
    exact .right h1 (valued_restricts hx g1 h2) (valued_restricts hx g2 h3) h4 h5 (ih g2)
  | bothLeft h1 h2 h3 h4 h5 _ _ h6 h7 h8 ih1 ih2 =>
    obtain ⟨g1, g2⟩ := typable_bin ht
    exact .bothLeft h1 (valued_restricts hx g1 h2) (valued_restricts hx g2 h3) h4 h5 (ih1 g1) (ih2 g2) h6 h7 h8
  | bothRight h1 h2 h3 h4 h5 _ _ h6 h7 h8 ih1 ih2 =>
    obtain ⟨g1, g2⟩ := typable_bin ht
    exact .bothRight h1 (valued_restricts hx g1 h2) (valued_restricts hx g2 h3) h4 h5 (ih1 g1) (ih2 g2) h6 h7 h8

end

/-! ### Declarations -/

theorem paramSig_of_mem {vs : List VarInfo} (hd : Distinct vs) {ki : VarInfo} (h : ki ∈ vs) :
    (paramSig vs).param ki.name = some ki.ty := keySig_of_mem hd h

theorem keySig_mem_ty {vs : List VarInfo} {n : Str} {t : Ty} (h : (keySig vs).key n = some t) :
    ∃ v ∈ vs, v.name = n ∧ v.ty = t := by
  simp only [keySig, Option.map_eq_some_iff] at h
  obtain ⟨v, h1, h2⟩ := h
  exact ⟨v, List.mem_of_find?_eq_some h1, by simpa using List.find?_some h1, h2⟩

theorem each_exists {α β : Type} {R : α → β → Prop} : ∀ {as : List α}, (∀ a ∈ as, ∃ b, R a b) → ∃ bs, Each R as bs
  | [], _ => ⟨[], .nil⟩
  | a :: _, hR =>
    let ⟨b, hb⟩ := hR a (by simp)
    let ⟨bs, hbs⟩ := each_exists fun a ha => hR a (by simp [ha])
    ⟨b :: bs, .cons hb hbs⟩

theorem each_map_eq {α β γ : Type} {R : α → β → Prop} {f : α → γ} {g : β → γ} (hR : ∀ a b, R a b → g b = f a)
    {as : List α} {bs : List β} (h : Each R as bs) : bs.map g = as.map f := by
  induction h with
  | nil => rfl
  | cons h _ ih => simp [hR _ _ h, ih]

theorem keyDecl_ids {f : MatchField} {v : VarInfo} (h : KeyDecl f v) : v.id = f.id ∧ v.name = f.name := by
  cases h <;> exact ⟨rfl, rfl⟩

theorem paramIs_ids {f : ParamDecl} {v : VarInfo} (h : ParamIs f v) : v.id = f.id ∧ v.name = f.name := by
  cases h <;> exact ⟨rfl, rfl⟩

theorem keys_distinct {fs : List MatchField} {vs : List VarInfo} (h : Each KeyDecl fs vs) :
    Distinct vs ↔ (fs.map fun f => f.id).Nodup ∧ (fs.map fun f => f.name).Nodup := by
  simp only [Distinct]
  rw [each_map_eq (f := fun f : MatchField => f.id) (g := VarInfo.id) (fun _ _ h => (keyDecl_ids h).1) h,
    each_map_eq (f := fun f : MatchField => f.name) (g := VarInfo.name) (fun _ _ h => (keyDecl_ids h).2) h]

theorem params_distinct {fs : List ParamDecl} {vs : List VarInfo} (h : Each ParamIs fs vs) :
    Distinct vs ↔ (fs.map fun f => f.id).Nodup ∧ (fs.map fun f => f.name).Nodup := by
  simp only [Distinct]
  rw [each_map_eq (f := fun f : ParamDecl => f.id) (g := VarInfo.id) (fun _ _ h => (paramIs_ids h).1) h,
    each_map_eq (f := fun f : ParamDecl => f.name) (g := VarInfo.name) (fun _ _ h => (paramIs_ids h).2) h]

theorem readConstraint_extends {pton : Str → Option Bytes} {k : ConstraintKind} {Γ Γ' : Sig}
    (hk : ∀ n t, Γ.key n = some t → Γ'.key n = some t) (hp : ∀ n t, Γ.param n = some t → Γ'.param n = some t) {p : Preamble}
    {r : Option (ConstraintSource × Expr × SExpr × Ty)} (h : ReadConstraint pton k Γ p r) : ReadConstraint pton k Γ' p r := by
  cases h with
  | none h => exact .none h
  | some h1 h2 h3 h4 h5 => exact .some h1 h2 h3 h4 (hasTy_extends hk hp h5)

section
variable {vs vs' : List VarInfo} (hd' : Distinct vs') (hs : ∀ v ∈ vs, v ∈ vs')
include hd' hs

theorem keySig_extends (n : Str) (t : Ty) (h : (keySig vs).key n = some t) : (keySig vs').key n = some t := by
  obtain ⟨v, h1, rfl, rfl⟩ := keySig_mem_ty h
  exact keySig_of_mem hd' (hs v h1)

omit hd' hs in
theorem keySig_noParam (n : Str) (t : Ty) (h : (keySig vs).param n = some t) : (keySig vs').param n = some t := h

omit hd' hs in
theorem paramSig_noKey (n : Str) (t : Ty) (h : (paramSig vs).key n = some t) : (paramSig vs').key n = some t := h

theorem paramSig_extends (n : Str) (t : Ty) (h : (paramSig vs).param n = some t) : (paramSig vs').param n = some t :=
  keySig_extends hd' hs n t h

theorem entryMeans_extends {entry : RtEntry} {ρ ρ' : Env} (h : EntryMeans vs entry ρ) (h' : EntryMeans vs' entry ρ') :
    Extends (keySig vs) (keySig vs') ρ ρ' := by
  refine ⟨fun n t hn => ⟨keySig_extends hd' hs n t hn, ?_⟩, nofun, by rw [h.priority, h'.priority]⟩
  obtain ⟨v, h1, rfl, rfl⟩ := keySig_mem_ty hn
  refine Option.ext fun w => ?_
  rw [h.key, h'.key]
  constructor
  · rintro ⟨k, g1, g2, g3⟩
    cases inj_of_nodup_map hd'.2 g1 (hs v h1) g2
    exact ⟨v, h1, rfl, g3⟩
  · rintro ⟨k, g1, g2, g3⟩
    exact ⟨k, hs k g1, g2, g3⟩

theorem actionMeans_extends {a : RtAction} {ρ ρ' : Env} (h : ActionMeans vs a ρ) (h' : ActionMeans vs' a ρ') :
    Extends (paramSig vs) (paramSig vs') ρ ρ' := by
  refine ⟨nofun, fun n t hn => ⟨paramSig_extends hd' hs n t hn, ?_⟩, by rw [h.priority, h'.priority]⟩
  obtain ⟨v, h1, rfl, rfl⟩ := keySig_mem_ty (vs := vs) hn
  refine Option.ext fun w => ?_
  rw [h.param, h'.param]
  constructor
  · rintro ⟨k, b, g1, g2, g3⟩
    cases inj_of_nodup_map hd'.2 g1 (hs v h1) g2
    exact ⟨v, b, h1, rfl, g3⟩
  · rintro ⟨k, b, g1, g2, g3⟩
    exact ⟨k, b, hs k g1, g2, g3⟩

end

/-! ### Entries -/

theorem wildcard_unique {t : Ty} {v w : Value} (h : WildcardOf t v) (h' : WildcardOf t w) : v = w := by
  cases h <;> cases h' <;> rfl

theorem function_exists {α β : Type} {R : α → β → Prop} (hR : ∀ a b b', R a b → R a b' → b = b') :
    ∃ f : α → Option β, ∀ a b, f a = some b ↔ R a b := by
  classical
  refine ⟨fun a => if h : ∃ b, R a b then some h.choose else none, fun a b => ?_⟩
  dsimp only
  by_cases h : ∃ b, R a b
  · rw [dif_pos h, Option.some.injEq]
    exact ⟨fun g => g ▸ h.choose_spec, fun g => hR _ _ _ h.choose_spec g⟩
  · rw [dif_neg h]
    exact ⟨nofun, fun g => (h ⟨b, g⟩).elim⟩

theorem keyValue_unique {entry : RtEntry} {ki : VarInfo} {v w : Value} (ho : (entry.matches_.map FieldMatch.fieldId).Nodup)
    (h : KeyValue entry ki v) (h' : KeyValue entry ki w) : v = w := by
  rcases h with ⟨m, h1, h2, h3⟩ | ⟨h1, h2⟩ <;> rcases h' with ⟨m', g1, g2, g3⟩ | ⟨g1, g2⟩
  · cases inj_of_nodup_map ho h1 g1 (h2.trans g2.symm)
    exact matchDenotes_unique h3 g3
  · exact (g1 m h1 h2).elim
  · exact (h1 m' g1 g2).elim
  · exact wildcard_unique h2 g2

theorem entryMeans_some {vs : List VarInfo} (hd : Distinct vs) {entry : RtEntry} (hf : EntryFits vs entry) :
    ∃ ρ, EntryMeans vs entry ρ := by
  obtain ⟨f, hf⟩ := function_exists (R := fun n v => ∃ ki ∈ vs, ki.name = n ∧ KeyValue entry ki v) (by
    rintro n v w ⟨k, h1, h2, h3⟩ ⟨k', g1, g2, g3⟩
    cases inj_of_nodup_map hd.2 h1 g1 (h2.trans g2.symm)
    exact keyValue_unique hf.once h3 g3)
  exact ⟨⟨f, fun _ => none, some entry.priority⟩, hf, fun _ => rfl, rfl⟩

theorem actionMeans_some {vs : List VarInfo} (hd : Distinct vs) {a : RtAction} (hf : ArgsFit vs a.params) :
    ∃ ρ, ActionMeans vs a ρ := by
  obtain ⟨f, hf⟩ := function_exists
    (R := fun n (z : Int) => ∃ pi v, pi ∈ vs ∧ pi.name = n ∧ (pi.id, v) ∈ a.params ∧ z = bytesNat v) (by
    rintro n z w ⟨k, b, h1, h2, h3, rfl⟩ ⟨k', b', g1, g2, g3, rfl⟩
    cases inj_of_nodup_map hd.2 h1 g1 (h2.trans g2.symm)
    have := inj_of_nodup_map hf.2 h3 g3 rfl
    simp only [Prod.mk.injEq, true_and] at this
    rw [this])
  exact ⟨⟨fun _ => none, f, none⟩, fun _ => rfl, hf, rfl⟩

theorem mayOmit_wildcard {f : MatchField} {v : VarInfo} (h : KeyDecl f v) (hf : MayOmit f) (hw : 0 ≤ f.bitwidth) :
    ∃ x, WildcardOf v.ty x := by
  cases h with
  | exact | other => simp [MayOmit] at hf
  | ternary id n w => exact ⟨_, .ternary w⟩
  | lpm id n w => exact ⟨_, .lpm w⟩
  | optional id n w => exact ⟨_, .optional w⟩
  | range id n w =>
    obtain ⟨k, rfl⟩ := Int.eq_ofNat_of_zero_le hw
    exact ⟨_, .range k⟩

section
variable {d d' : TableDecl} (hg : TableGrows d d') {vs vs' : List VarInfo} (hv : Each KeyDecl d.matchFields vs)
  (hv' : Each KeyDecl d'.matchFields vs')
include hg hv hv'

theorem keys_kept (v : VarInfo) (h : v ∈ vs) : v ∈ vs' := by
  obtain ⟨f, h1, h2⟩ := each_mem hv v h
  obtain ⟨v', h3, h4⟩ := each_mem_left hv' f (hg.kept f h1)
  rwa [keyDecl_unique h2 h4]

theorem keys_added (hw : ∀ f ∈ d'.matchFields, 0 ≤ f.bitwidth) (v : VarInfo) (h : v ∈ vs') :
    v ∈ vs ∨ ∃ x, WildcardOf v.ty x := by
  obtain ⟨f, h1, h2⟩ := each_mem hv' v h
  rcases hg.added f h1 with h3 | h3
  · obtain ⟨v', h4, h5⟩ := each_mem_left hv f h3
    rw [keyDecl_unique h2 h5]
    exact .inl h4
  · exact .inr (mayOmit_wildcard h2 h3 (hw f h1))

omit hv in
theorem keys_distinct_grown : Distinct vs' := (keys_distinct hv').2 ⟨hg.ids, hg.names⟩

theorem entryFits_grown (hw : ∀ f ∈ d'.matchFields, 0 ≤ f.bitwidth) {entry : RtEntry}
    (hm : ∀ m ∈ entry.matches_, ∃ f ∈ d.matchFields, f.id = m.fieldId) : EntryFits vs entry ↔ EntryFits vs' entry := by
  have hk := keys_kept hg hv hv'
  constructor
  · intro h
    refine ⟨fun m g => ?_, h.once, fun ki g => ?_⟩
    · obtain ⟨ki, g1, g2⟩ := h.known m g
      exact ⟨ki, hk ki g1, g2⟩
    · rcases keys_added hg hv hv' hw ki g with g | g
      · exact h.complete ki g
      · exact .inr g
  · intro h
    refine ⟨fun m g => ?_, h.once, fun ki g => h.complete ki (hk ki g)⟩
    obtain ⟨ki, g1, g2, g3⟩ := h.known m g
    obtain ⟨f, g4, g5⟩ := hm m g
    obtain ⟨v, g6, g7⟩ := each_mem_left hv f g4
    have : v = ki := inj_of_nodup_map (keys_distinct_grown hg hv').1 (hk v g6) g1
      (by rw [(keyDecl_ids g7).1, g5, g2])
    subst this
    exact ⟨v, g6, g2, g3⟩

end

section
variable {pton : Str → Option Bytes} {d d' : TableDecl} (hg : TableGrows d d') (gd : GoodTable pton d)
include hg gd

theorem goodTable_grown : GoodTable pton d' := by
  obtain ⟨vs, r, h1, h2, h3⟩ := gd
  obtain ⟨vs', h4⟩ := each_exists (R := KeyDecl) (as := d'.matchFields) (fun f hf => by
    rcases hg.added f hf with g | g
    · obtain ⟨v, _, g2⟩ := each_mem_left h1 f g
      exact ⟨v, g2⟩
    · obtain ⟨id, n, w, k⟩ := f
      simp only [MayOmit] at g
      rcases g with rfl | rfl | rfl | rfl
      · exact ⟨_, .ternary _ _ _⟩
      · exact ⟨_, .lpm _ _ _⟩
      · exact ⟨_, .range _ _ _⟩
      · exact ⟨_, .optional _ _ _⟩)
  have hd' := keys_distinct_grown hg h4
  have hk := keys_kept hg h1 h4
  exact ⟨vs', r, h4, hd', hg.preamble ▸ readConstraint_extends (keySig_extends hd' hk) keySig_noParam h3⟩

/-- The parts of the table before and after, for an entry that mentions only the keys there were before. -/
theorem table_grown (hw : ∀ f ∈ d'.matchFields, 0 ≤ f.bitwidth) {entry : RtEntry}
    (hm : ∀ m ∈ entry.matches_, ∃ f ∈ d.matchFields, f.id = m.fieldId) :
    ∃ vs vs' r, Each KeyDecl d.matchFields vs ∧ Each KeyDecl d'.matchFields vs' ∧
      ReadConstraint pton .table (keySig vs) d.preamble r ∧ ReadConstraint pton .table (keySig vs') d'.preamble r ∧
      (EntryFits vs entry ↔ EntryFits vs' entry) ∧
      (EntryFits vs entry → ∃ ρ ρ', EntryMeans vs entry ρ ∧ EntryMeans vs' entry ρ' ∧
        Extends (keySig vs) (keySig vs') ρ ρ') := by
  obtain ⟨vs', r', k1, k2, k3⟩ := goodTable_grown hg gd
  obtain ⟨vs, r, h1, h2, h3⟩ := gd
  have hk := keys_kept hg h1 k1
  have hr : ReadConstraint pton .table (keySig vs') d'.preamble r :=
    hg.preamble ▸ readConstraint_extends (keySig_extends k2 hk) keySig_noParam h3
  have hf := entryFits_grown hg h1 k1 hw hm
  refine ⟨vs, vs', r, h1, k1, h3, hr, hf, fun g => ?_⟩
  obtain ⟨ρ, hρ⟩ := entryMeans_some h2 g
  obtain ⟨ρ', hρ'⟩ := entryMeans_some k2 (hf.1 g)
  exact ⟨ρ, ρ', hρ, hρ', entryMeans_extends k2 hk hρ hρ'⟩

theorem tableValue_grown (hw : ∀ f ∈ d'.matchFields, 0 ≤ f.bitwidth) {entry : RtEntry}
    (hm : ∀ m ∈ entry.matches_, ∃ f ∈ d.matchFields, f.id = m.fieldId) (b : Bool) :
    TableValue pton d entry b ↔ TableValue pton d' entry b := by
  obtain ⟨vs, vs', r, h1, h2, h3, h4, h5, h6⟩ := table_grown hg gd hw hm
  constructor
  · rintro ⟨us, src, e, s, ρ, k1, k2, k3, k4, k5⟩
    cases each_unique (R := KeyDecl) (fun _ _ _ => keyDecl_unique) h1 k1
    cases readConstraint_unique h3 k2
    obtain ⟨ρ₁, ρ', g1, g2, g3⟩ := h6 k3
    cases entryMeans_unique k4 g1
    exact ⟨vs', src, e, s, ρ', h2, h4, h5.1 k3, g2, evaluates_extends g3 k5⟩
  · rintro ⟨us, src, e, s, ρ', k1, k2, k3, k4, k5⟩
    cases each_unique (R := KeyDecl) (fun _ _ _ => keyDecl_unique) h2 k1
    cases readConstraint_unique h4 k2
    obtain ⟨ρ, ρ₁, g1, g2, g3⟩ := h6 (h5.2 k3)
    cases entryMeans_unique k4 g2
    have ht : HasTy (keySig vs) s .boolean := by cases h3; assumption
    exact ⟨vs, src, e, s, ρ, h1, h3, h5.2 k3, g1, evaluates_restricts g3 k5 ht⟩

theorem tableReport_grown (hw : ∀ f ∈ d'.matchFields, 0 ≤ f.bitwidth) {entry : RtEntry}
    (hm : ∀ m ∈ entry.matches_, ∃ f ∈ d.matchFields, f.id = m.fieldId) (msg : Str) :
    TableReport pton d entry msg ↔ TableReport pton d' entry msg := by
  obtain ⟨vs, vs', r, h1, h2, h3, h4, h5, h6⟩ := table_grown hg gd hw hm
  have same : ∀ {e y : Expr} {Γ : Sig} {ρ ρ' σ : Env}, Extends (keySig vs) (keySig vs') ρ ρ' → Typable (keySig vs) e →
      Explained Γ σ e y → ∀ k, Mentions y k → ρ'.key k = ρ.key k := by
    intro e y Γ ρ ρ' σ hx ht hy k hk
    rcases typable_mentions (explained_typable hy ht) hk with ⟨t, g⟩ | ⟨t, g⟩
    · exact (hx.key k t g).2
    · simp [keySig] at g
  constructor
  · rintro ⟨us, src, e, y, s, ρ, v, text, prio, lines, k1, k2, k3, k4, k5, k6, k7, k8, k9, l1, l2, l3, l4⟩
    cases each_unique (R := KeyDecl) (fun _ _ _ => keyDecl_unique) h1 k1
    cases readConstraint_unique h3 k2
    obtain ⟨ρ₁, ρ', g1, g2, g3⟩ := h6 k3
    cases entryMeans_unique k4 g1
    have ht : Typable (keySig vs) e := by cases h3; exact ⟨s, _, by assumption, by assumption⟩
    refine ⟨vs', src, e, y, s, ρ', v, text, prio, lines, h2, h4, h5.1 k3, g2, evaluates_extends g3 k5,
      explained_extends g3 k6, valued_extends g3 k7, k8, k9, l1, l2, fun k a => ?_, by rw [hg.preamble]; exact l4⟩
    rw [l3]
    exact and_congr_right fun g => by rw [same g3 ht k6 k g]
  · rintro ⟨us, src, e, y, s, ρ', v, text, prio, lines, k1, k2, k3, k4, k5, k6, k7, k8, k9, l1, l2, l3, l4⟩
    cases each_unique (R := KeyDecl) (fun _ _ _ => keyDecl_unique) h2 k1
    cases readConstraint_unique h4 k2
    obtain ⟨ρ, ρ₁, g1, g2, g3⟩ := h6 (h5.2 k3)
    cases entryMeans_unique k4 g2
    have hs : abs e = some s ∧ HasTy (keySig vs) s .boolean := by cases h3; exact ⟨by assumption, by assumption⟩
    have ht : Typable (keySig vs) e := ⟨s, _, hs⟩
    refine ⟨vs, src, e, y, s, ρ, v, text, prio, lines, h1, h3, h5.2 k3, g1, evaluates_restricts g3 k5 hs.2,
      explained_restricts g3 k6 ht, valued_restricts g3 (explained_typable k6 ht) k7, k8, k9, l1, l2, fun k a => ?_,
      by rw [hg.preamble] at l4; exact l4⟩
    rw [l3]
    exact and_congr_right fun g => by rw [same g3 ht k6 k g]

end

/-! ### Actions -/

section
variable {pton : Str → Option Bytes} {d d' : ActionDecl} (hg : ActionGrows d d') (gd : GoodAction pton d)
include hg

theorem params_kept {vs vs' : List VarInfo} (hv : Each ParamIs d.params vs) (hv' : Each ParamIs d'.params vs') (v : VarInfo)
    (h : v ∈ vs) : v ∈ vs' := by
  obtain ⟨f, h1, h2⟩ := each_mem hv v h
  obtain ⟨v', h3, h4⟩ := each_mem_left hv' f (hg.kept f h1)
  rwa [paramIs_unique h2 h4]

theorem argsFit_grown {vs vs' : List VarInfo} (hv : Each ParamIs d.params vs) (hv' : Each ParamIs d'.params vs')
    {a : RtAction} (hm : ∀ q ∈ a.params, ∃ f ∈ d.params, f.id = q.1) : ArgsFit vs a.params ↔ ArgsFit vs' a.params := by
  refine and_congr_left fun _ => ⟨fun h q hq => ?_, fun _ q hq => ?_⟩
  · obtain ⟨v, h1, h2⟩ := h q hq
    exact ⟨v, params_kept hg hv hv' v h1, h2⟩
  · obtain ⟨f, h1, h2⟩ := hm q hq
    obtain ⟨v, h3, h4⟩ := each_mem_left hv f h1
    exact ⟨v, h3, by rw [(paramIs_ids h4).1, h2]⟩

include gd

theorem goodAction_grown : GoodAction pton d' := by
  obtain ⟨vs, r, h1, h2, h3⟩ := gd
  obtain ⟨vs', h4⟩ := each_exists (R := ParamIs) (as := d'.params) (fun f _ => by
    obtain ⟨id, n, w, t⟩ := f
    cases t with
    | nil => exact ⟨_, .bits _ _ _⟩
    | cons c t => exact ⟨_, .named _ _ _ nofun⟩)
  have hd' : Distinct vs' := (params_distinct h4).2 ⟨hg.ids, hg.names⟩
  have hk := params_kept hg h1 h4
  exact ⟨vs', r, h4, hd', hg.preamble ▸ readConstraint_extends paramSig_noKey (paramSig_extends hd' hk) h3⟩

theorem action_grown {a : RtAction} (hm : ∀ q ∈ a.params, ∃ f ∈ d.params, f.id = q.1) :
    ∃ vs vs' r, Each ParamIs d.params vs ∧ Each ParamIs d'.params vs' ∧
      ReadConstraint pton .action (paramSig vs) d.preamble r ∧ ReadConstraint pton .action (paramSig vs') d'.preamble r ∧
      (ArgsFit vs a.params ↔ ArgsFit vs' a.params) ∧
      (ArgsFit vs a.params → ∃ ρ ρ', ActionMeans vs a ρ ∧ ActionMeans vs' a ρ' ∧
        Extends (paramSig vs) (paramSig vs') ρ ρ') := by
  obtain ⟨vs', r', k1, k2, k3⟩ := goodAction_grown hg gd
  obtain ⟨vs, r, h1, h2, h3⟩ := gd
  have hk := params_kept hg h1 k1
  have hr : ReadConstraint pton .action (paramSig vs') d'.preamble r :=
    hg.preamble ▸ readConstraint_extends paramSig_noKey (paramSig_extends k2 hk) h3
  have hf := argsFit_grown hg h1 k1 hm
  refine ⟨vs, vs', r, h1, k1, h3, hr, hf, fun g => ?_⟩
  obtain ⟨ρ, hρ⟩ := actionMeans_some h2 g
  obtain ⟨ρ', hρ'⟩ := actionMeans_some k2 (hf.1 g)
  exact ⟨ρ, ρ', hρ, hρ', actionMeans_extends k2 hk hρ hρ'⟩

theorem actionValue_grown {a : RtAction} (hm : ∀ q ∈ a.params, ∃ f ∈ d.params, f.id = q.1) (b : Bool) :
    ActionValue pton d a b ↔ ActionValue pton d' a b := by
  obtain ⟨vs, vs', r, h1, h2, h3, h4, h5, h6⟩ := action_grown hg gd hm
  constructor
  · rintro ⟨us, src, e, s, ρ, k1, k2, k3, k4, k5⟩
    cases each_unique (R := ParamIs) (fun _ _ _ => paramIs_unique) h1 k1
    cases readConstraint_unique h3 k2
    obtain ⟨ρ₁, ρ', g1, g2, g3⟩ := h6 k3
    cases actionMeans_unique k4 g1
    exact ⟨vs', src, e, s, ρ', h2, h4, h5.1 k3, g2, evaluates_extends g3 k5⟩
  · rintro ⟨us, src, e, s, ρ', k1, k2, k3, k4, k5⟩
    cases each_unique (R := ParamIs) (fun _ _ _ => paramIs_unique) h2 k1
    cases readConstraint_unique h4 k2
    obtain ⟨ρ, ρ₁, g1, g2, g3⟩ := h6 (h5.2 k3)
    cases actionMeans_unique k4 g2
    have ht : HasTy (paramSig vs) s .boolean := by cases h3; assumption
    exact ⟨vs, src, e, s, ρ, h1, h3, h5.2 k3, g1, evaluates_restricts g3 k5 ht⟩

theorem actionReport_grown {a : RtAction} (hm : ∀ q ∈ a.params, ∃ f ∈ d.params, f.id = q.1) (msg : Str) :
    ActionReport pton d a msg ↔ ActionReport pton d' a msg := by
  obtain ⟨vs, vs', r, h1, h2, h3, h4, h5, h6⟩ := action_grown hg gd hm
  have same : ∀ {e y : Expr} {Γ : Sig} {ρ ρ' σ : Env}, Extends (paramSig vs) (paramSig vs') ρ ρ' →
      Typable (paramSig vs) e → Explained Γ σ e y → ∀ k, Mentions y k → ρ'.param k = ρ.param k := by
    intro e y Γ ρ ρ' σ hx ht hy k hk
    rcases typable_mentions (explained_typable hy ht) hk with ⟨t, g⟩ | ⟨t, g⟩
    · simp [paramSig] at g
    · exact (hx.param k t g).2
  constructor
  · rintro ⟨us, src, e, y, s, ρ, v, text, lines, k1, k2, k3, k4, k5, k6, k7, k8, l1, l2, l3, l4⟩
    cases each_unique (R := ParamIs) (fun _ _ _ => paramIs_unique) h1 k1
    cases readConstraint_unique h3 k2
    obtain ⟨ρ₁, ρ', g1, g2, g3⟩ := h6 k3
    cases actionMeans_unique k4 g1
    have ht : Typable (paramSig vs) e := by cases h3; exact ⟨s, _, by assumption, by assumption⟩
    refine ⟨vs', src, e, y, s, ρ', v, text, lines, h2, h4, h5.1 k3, g2, evaluates_extends g3 k5,
      explained_extends g3 k6, valued_extends g3 k7, k8, l1, l2, fun k a => ?_, by rw [hg.preamble]; exact l4⟩
    rw [l3]
    exact and_congr_right fun g => by rw [same g3 ht k6 k g]
  · rintro ⟨us, src, e, y, s, ρ', v, text, lines, k1, k2, k3, k4, k5, k6, k7, k8, l1, l2, l3, l4⟩
    cases each_unique (R := ParamIs) (fun _ _ _ => paramIs_unique) h2 k1
    cases readConstraint_unique h4 k2
    obtain ⟨ρ, ρ₁, g1, g2, g3⟩ := h6 (h5.2 k3)
    cases actionMeans_unique k4 g2
    have hs : abs e = some s ∧ HasTy (paramSig vs) s .boolean := by cases h3; exact ⟨by assumption, by assumption⟩
    have ht : Typable (paramSig vs) e := ⟨s, _, hs⟩
    refine ⟨vs, src, e, y, s, ρ, v, text, lines, h1, h3, h5.2 k3, g1, evaluates_restricts g3 k5 hs.2,
      explained_restricts g3 k6 ht, valued_restricts g3 (explained_typable k6 ht) k7, k8, l1, l2, fun k a => ?_,
      by rw [hg.preamble] at l4; exact l4⟩
    rw [l3]
    exact and_congr_right fun g => by rw [same g3 ht k6 k g]

end

/-! ### Programs -/

section
variable {pton : Str → Option Bytes} {p p' : P4Info} (hg : ProgramGrows p p')
  (ga : ∀ d ∈ p.actions, GoodAction pton d) (ha' : (p'.actions.map fun a => a.preamble.id).Nodup)
include hg ga ha'

theorem actions_grown {a : RtAction} (hk : KnownAction p a) (ha : (p.actions.map fun a => a.preamble.id).Nodup) :
    (ActionAccepted pton p a ↔ ActionAccepted pton p' a) ∧
    ∀ msg, (∃ d ∈ p.actions, d.preamble.id = a.actionId ∧ ActionReport pton d a msg) ↔
      ∃ d ∈ p'.actions, d.preamble.id = a.actionId ∧ ActionReport pton d a msg := by
  obtain ⟨d, h1, h2, h3⟩ := hk
  obtain ⟨d', h4, h5⟩ := hg.actions d h1
  have h6 : d'.preamble.id = a.actionId := by rw [h5.preamble, h2]
  have hv := actionValue_grown h5 (ga d h1) h3 true
  have hr := actionReport_grown h5 (ga d h1) h3
  have e1 : ∀ {P : ActionDecl → Prop}, (∃ x ∈ p.actions, x.preamble.id = a.actionId ∧ P x) ↔ P d := by
    intro P
    constructor
    · rintro ⟨x, g1, g2, g3⟩
      rwa [← inj_of_nodup_map ha g1 h1 (g2.trans h2.symm)]
    · exact fun g => ⟨d, h1, h2, g⟩
  have e2 : ∀ {P : ActionDecl → Prop}, (∃ x ∈ p'.actions, x.preamble.id = a.actionId ∧ P x) ↔ P d' := by
    intro P
    constructor
    · rintro ⟨x, g1, g2, g3⟩
      rwa [← inj_of_nodup_map ha' g1 h4 (g2.trans h6.symm)]
    · exact fun g => ⟨d', h4, h6, g⟩
  exact ⟨by rw [ActionAccepted, ActionAccepted, e1, e2, h5.preamble, hv], fun msg => by rw [e1, e2, hr]⟩

end

theorem actionsAccepted_iff {pton : Str → Option Bytes} {p : P4Info} {t : Option TableAction} :
    ActionsAccepted pton p t ↔ ∃ as, actionsOf t = some as ∧ ∀ a ∈ as, ActionAccepted pton p a := by
  constructor
  · rintro (_ | h | h)
    · exact ⟨[], rfl, by simp⟩
    · exact ⟨[_], rfl, by simpa using h⟩
    · exact ⟨_, rfl, h⟩
  · rintro ⟨as, h1, h2⟩
    match t, h1 with
    | none, _ => exact .none
    | some (.action a), h1 => cases h1; exact .one (h2 a (by simp))
    | some (.actionSet as), h1 => cases h1; exact .set h2

theorem program_grown {sys : Sys} {p p' : P4Info} {ci ci' : ConstraintInfo} (h : p4ToConstraintInfo sys p = .ok ci)
    (h' : p4ToConstraintInfo sys p' = .ok ci') (hg : ProgramGrows p p') (hw : NonNegProgram p') {entry : RtEntry}
    (hk : KnownEntry p entry) :
    (Accepted sys.inetPton6 p entry ↔ Accepted sys.inetPton6 p' entry) ∧
    ∀ msg, ReportsViolation sys.inetPton6 p entry msg ↔ ReportsViolation sys.inetPton6 p' entry msg := by
  obtain ⟨ht, ha, gt, ga⟩ := p4ToConstraintInfo_succeeds.1 ⟨ci, h⟩
  obtain ⟨ht', ha', -, -⟩ := p4ToConstraintInfo_succeeds.1 ⟨ci', h'⟩
  obtain ⟨⟨d, h1, h2, h3⟩, hka⟩ := hk
  obtain ⟨d', h4, h5⟩ := hg.tables d h1
  have h6 : d'.preamble.id = entry.tableId := by rw [h5.preamble, h2]
  have e1 : ∀ {P : TableDecl → Prop}, (∃ x ∈ p.tables, x.preamble.id = entry.tableId ∧ P x) ↔ P d := by
    intro P
    constructor
    · rintro ⟨x, g1, g2, g3⟩
      rwa [← inj_of_nodup_map ht g1 h1 (g2.trans h2.symm)]
    · exact fun g => ⟨d, h1, h2, g⟩
  have e2 : ∀ {P : TableDecl → Prop}, (∃ x ∈ p'.tables, x.preamble.id = entry.tableId ∧ P x) ↔ P d' := by
    intro P
    constructor
    · rintro ⟨x, g1, g2, g3⟩
      rwa [← inj_of_nodup_map ht' g1 h4 (g2.trans h6.symm)]
    · exact fun g => ⟨d', h4, h6, g⟩
  have hv := tableValue_grown h5 (gt d h1) (hw.1 d' h4) h3 true
  have hr := tableReport_grown h5 (gt d h1) (hw.1 d' h4) h3
  have key := fun as (g : actionsOf entry.action = some as) a (g' : a ∈ as) => actions_grown hg ga ha' (hka as g a g') ha
  refine ⟨?_, fun msg => ?_⟩
  · rw [Accepted, Accepted, e1, e2, h5.preamble, hv, actionsAccepted_iff, actionsAccepted_iff]
    refine and_congr_right fun _ => exists_congr fun as => and_congr_right fun g => ?_
    exact ⟨fun f a g' => ((key as g a g').1).1 (f a g'), fun f a g' => ((key as g a g').1).2 (f a g')⟩
  · rw [ReportsViolation, ReportsViolation, e1, e2, h5.preamble, hv, hr]
    refine or_congr_right (and_congr_right fun _ => ?_)
    refine exists_congr fun pre => exists_congr fun a => exists_congr fun post => and_congr_right fun g => ?_
    have e3 : (∀ b ∈ pre, ActionAccepted sys.inetPton6 p b) ↔ ∀ b ∈ pre, ActionAccepted sys.inetPton6 p' b :=
      ⟨fun f b g' => ((key _ g b (by simp [g'])).1).1 (f b g'), fun f b g' => ((key _ g b (by simp [g'])).1).2 (f b g')⟩
    rw [e3, (key _ g a (by simp)).2 msg]

theorem p4ToConstraintInfo_grown {sys : Sys} {p p' : P4Info} (h : ∃ ci, p4ToConstraintInfo sys p = .ok ci)
    (ht : ∀ d' ∈ p'.tables, (∃ d ∈ p.tables, TableGrows d d') ∨ GoodTable sys.inetPton6 d')
    (ha : ∀ d' ∈ p'.actions, (∃ d ∈ p.actions, ActionGrows d d') ∨ GoodAction sys.inetPton6 d')
    (it : (p'.tables.map fun t => t.preamble.id).Nodup) (ia : (p'.actions.map fun t => t.preamble.id).Nodup) :
    ∃ ci, p4ToConstraintInfo sys p' = .ok ci := by
  obtain ⟨_, _, gt, ga⟩ := p4ToConstraintInfo_succeeds.1 h
  refine p4ToConstraintInfo_succeeds.2 ⟨it, ia, fun d' hd => ?_, fun d' hd => ?_⟩
  · rcases ht d' hd with ⟨d, h1, h2⟩ | h1
    · exact goodTable_grown h2 (gt d h1)
    · exact h1
  · rcases ha d' hd with ⟨d, h1, h2⟩ | h1
    · exact goodAction_grown h2 (ga d h1)
    · exact h1

end P4C
