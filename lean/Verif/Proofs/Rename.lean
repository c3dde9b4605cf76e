import Verif.Spec.Rename
import Verif.Proofs.Evolve

/-
What constraints say does not depend on names and ids.
-/

namespace P4C

open Spec

/-- `Γ'` and `ρ'` are `Γ` and `ρ` with other names. -/
structure RenamesTo (f : Str → Str) (Γ Γ' : Sig) (ρ ρ' : Env) : Prop where
  key : ∀ n t, Γ.key n = some t → Γ'.key (f n) = some t ∧ ρ'.key (f n) = ρ.key n
  param : ∀ n t, Γ.param n = some t → Γ'.param (f n) = some t ∧ ρ'.param (f n) = ρ.param n
  priority : ρ'.priority = ρ.priority

theorem hasTy_renamed {f : Str → Str} {Γ Γ' : Sig} (hk : ∀ n t, Γ.key n = some t → Γ'.key (f n) = some t)
    (hp : ∀ n t, Γ.param n = some t → Γ'.param (f n) = some t) {s : SExpr} {t : Ty} (h : HasTy Γ s t) :
    HasTy Γ' (s.renamed f) t := by
  induction h with
  | bool b => exact .bool b
  | int z => exact .int z
  | key h1 h2 => exact .key (hk _ _ h1) h2
  | param h1 h2 => exact .param (hp _ _ h1) h2
  | priority => exact .priority
  | not _ ih => exact .not ih
  | neg _ ih => exact .neg ih
  | conn _ _ ih1 ih2 => exact .conn ih1 ih2
  | cmp _ _ h1 h2 ih1 ih2 => exact .cmp ih1 ih2 h1 h2
  | field _ h1 ih => exact .field ih h1

section
variable {f : Str → Str} {Γ Γ' : Sig} {ρ ρ' : Env} (hx : RenamesTo f Γ Γ' ρ ρ')
include hx

theorem evaluates_renamed {s : SExpr} {t : Ty} {v : Value} (h : Evaluates Γ ρ s t v) :
    Evaluates Γ' ρ' (s.renamed f) t v := by
  induction h with
  | bool b => exact .bool b
  | int z => exact .int z
  | key h1 h2 => exact .key (hx.key _ _ h1).1 ((hx.key _ _ h1).2.trans h2)
  | param h1 h2 => exact .param (hx.param _ _ h1).1 ((hx.param _ _ h1).2.trans h2)
  | priority h1 => exact .priority (hx.priority.trans h1)
  | not _ ih => exact .not ih
  | neg _ ih => exact .neg ih
  | decided _ h1 ih => exact .decided ih h1
  | conn _ _ ih1 ih2 => exact .conn ih1 ih2
  | cmp _ _ h1 h2 h3 ih1 ih2 => exact .cmp ih1 ih2 h1 h2 h3
  | field _ h1 h2 ih => exact .field ih h1 h2

theorem evaluates_unrenamed {s : SExpr} {t u : Ty} {v : Value} (h : Evaluates Γ' ρ' (s.renamed f) t v) (ht : HasTy Γ s u) :
    Evaluates Γ ρ s t v := by
  induction s generalizing t u v with
  | bool b => cases h; exact .bool b
  | int z => cases h; exact .int z
  | key n =>
    cases h with
    | key h1 h2 =>
      cases ht with
      | key h3 =>
        obtain ⟨h4, h5⟩ := hx.key _ _ h3
        rw [h4] at h1
        cases h1
        exact .key h3 (h5.symm.trans h2)
  | param n =>
    cases h with
    | param h1 h2 =>
      cases ht with
      | param h3 =>
        obtain ⟨h4, h5⟩ := hx.param _ _ h3
        rw [h4] at h1
        cases h1
        exact .param h3 (h5.symm.trans h2)
  | attr n => cases h with | priority h1 => exact .priority (hx.priority.symm.trans h1)
  | not e ih => cases h with | not h => cases ht with | not h1 => exact .not (ih h h1)
  | neg e ih => cases h with | neg h => cases ht with | neg h1 => exact .neg (ih h h1)
  | conn o l r ih1 ih2 =>
    cases ht with
    | conn h2 h3 =>
      cases h with
      | decided h h1 => exact .decided (ih1 h h2) h1
      | conn h h' => exact .conn (ih1 h h2) (ih2 h' h3)
  | cmp o l r ih1 ih2 =>
    cases ht with
    | cmp h4 h5 => cases h with | cmp h h' h1 h2 h3 => exact .cmp (ih1 h h4) (ih2 h' h5) h1 h2 h3
  | field e n ih => cases ht with | field h3 => cases h with | field h h1 h2 => exact .field (ih h h3) h1 h2

end

/-! ### Variables -/

/-- A variable with another id and name. -/
def relabel (g : Nat → Nat) (f : Str → Str) (v : VarInfo) : VarInfo := ⟨g v.id, f v.name, v.ty⟩

theorem nodup_map_inj {α β γ : Type} {x : α → β} {y : α → γ} {l : List α} (h : (l.map x).Nodup)
    (hxy : ∀ a ∈ l, ∀ b ∈ l, y a = y b → x a = x b) : (l.map y).Nodup := by
  induction l with
  | nil => simp
  | cons a l ih =>
    simp only [List.map_cons, List.nodup_cons, List.mem_map, not_exists, not_and] at h ⊢
    refine ⟨fun b hb e => h.1 b hb (hxy b (by simp [hb]) a (by simp) e), ih h.2 fun c hc d hd => ?_⟩
    exact hxy c (by simp [hc]) d (by simp [hd])

section
variable {g : Nat → Nat} {f : Str → Str} (hg : ∀ a b, g a = g b → a = b) (hf : ∀ a b, f a = f b → a = b)

theorem keyDecl_relabel {m : MatchField} {v : VarInfo} (h : KeyDecl m v) :
    KeyDecl { m with id := g m.id, name := f m.name } (relabel g f v) := by
  cases h with
  | exact id n w => exact .exact _ _ _
  | ternary id n w => exact .ternary _ _ _
  | lpm id n w => exact .lpm _ _ _
  | range id n w => exact .range _ _ _
  | optional id n w => exact .optional _ _ _
  | other id n w k => exact .other _ _ _ _

theorem paramIs_relabel {m : ParamDecl} {v : VarInfo} (h : ParamIs m v) :
    ParamIs { m with id := g m.id, name := f m.name } (relabel g f v) := by
  cases h with
  | bits id n w => exact .bits _ _ _
  | named id n w h => exact .named _ _ _ h

theorem each_map {α β : Type} {P : α → β → Prop} {x : α → α} {y : β → β} (hP : ∀ a b, P a b → P (x a) (y b)) {as : List α}
    {bs : List β} (h : Each P as bs) : Each P (as.map x) (bs.map y) := by
  induction h with
  | nil => exact .nil
  | cons h _ ih => exact .cons (hP _ _ h) ih

include hg hf

theorem distinct_relabel {vs : List VarInfo} (h : Distinct vs) : Distinct (vs.map (relabel g f)) := by
  refine ⟨?_, ?_⟩
  · rw [List.map_map]; exact nodup_map_inj h.1 fun a _ b _ e => hg _ _ e
  · rw [List.map_map]; exact nodup_map_inj h.2 fun a _ b _ e => hf _ _ e

theorem keySig_relabel {vs : List VarInfo} (h : Distinct vs) (n : Str) (t : Ty) (hn : (keySig vs).key n = some t) :
    (keySig (vs.map (relabel g f))).key (f n) = some t := by
  obtain ⟨v, h1, rfl, rfl⟩ := keySig_mem_ty hn
  exact keySig_of_mem (ki := relabel g f v) (distinct_relabel hg hf h) (List.mem_map_of_mem h1)

omit hf in
theorem entryFits_relabel {vs : List VarInfo} {entry entry' : RtEntry}
    (he : entry'.matches_ = entry.matches_.map fun m => { m with fieldId := g m.fieldId }) :
    EntryFits vs entry ↔ EntryFits (vs.map (relabel g f)) entry' := by
  have hids : entry'.matches_.map FieldMatch.fieldId = entry.matches_.map fun m => g m.fieldId := by
    rw [he, List.map_map]; rfl
  constructor
  · intro h
    refine ⟨fun m hm => ?_, ?_, fun ki hk => ?_⟩
    · rw [he, List.mem_map] at hm
      obtain ⟨m, hm, rfl⟩ := hm
      obtain ⟨ki, h1, h2, h3⟩ := h.known m hm
      exact ⟨relabel g f ki, List.mem_map_of_mem h1, by simp [relabel, h2], h3⟩
    · rw [hids]
      exact nodup_map_inj h.once fun a _ b _ e => hg _ _ e
    · obtain ⟨ki, hk', rfl⟩ := List.mem_map.1 hk
      have hk := hk'
      rcases h.complete ki hk with ⟨m, h1, h2⟩ | h1
      · exact .inl ⟨_, by rw [he]; exact List.mem_map_of_mem h1, by simp [relabel, h2]⟩
      · exact .inr h1
  · intro h
    refine ⟨fun m hm => ?_, ?_, fun ki hk => ?_⟩
    · obtain ⟨ki, h1, h2, h3⟩ := h.known _ (by rw [he]; exact List.mem_map_of_mem hm)
      obtain ⟨ki, h1', rfl⟩ := List.mem_map.1 h1
      have h1 := h1'
      exact ⟨ki, h1, hg _ _ h2, h3⟩
    · have := h.once
      rw [hids] at this
      exact nodup_map_inj this fun a _ b _ e => congrArg g e
    · rcases h.complete _ (List.mem_map_of_mem hk) with ⟨m, h1, h2⟩ | h1
      · rw [he, List.mem_map] at h1
        obtain ⟨m, h1, rfl⟩ := h1
        exact .inl ⟨m, h1, hg _ _ h2⟩
      · exact .inr h1

omit hf in
theorem keyValue_relabel {entry entry' : RtEntry}
    (he : entry'.matches_ = entry.matches_.map fun m => { m with fieldId := g m.fieldId }) {ki : VarInfo} {v : Value} :
    KeyValue entry' (relabel g f ki) v ↔ KeyValue entry ki v := by
  unfold KeyValue
  rw [he]
  refine or_congr ⟨?_, ?_⟩ (and_congr_left fun _ => ⟨?_, ?_⟩)
  · rintro ⟨m, h1, h2, h3⟩
    obtain ⟨m, h1', rfl⟩ := List.mem_map.1 h1
    have h1 := h1'
    exact ⟨m, h1, hg _ _ h2, h3⟩
  · rintro ⟨m, h1, h2, h3⟩
    exact ⟨_, List.mem_map_of_mem h1, by simp [relabel, h2], h3⟩
  · exact fun h m hm e => h _ (List.mem_map_of_mem hm) (by simp [relabel, e])
  · intro h m hm e
    obtain ⟨m, h1, rfl⟩ := List.mem_map.1 hm
    exact h m h1 (hg _ _ e)

theorem entryMeans_relabel {vs : List VarInfo} (hd : Distinct vs) {entry entry' : RtEntry}
    (he : entry'.matches_ = entry.matches_.map fun m => { m with fieldId := g m.fieldId })
    (hp : entry'.priority = entry.priority) {ρ ρ' : Env} (h : EntryMeans vs entry ρ)
    (h' : EntryMeans (vs.map (relabel g f)) entry' ρ') :
    RenamesTo f (keySig vs) (keySig (vs.map (relabel g f))) ρ ρ' := by
  refine ⟨fun n t hn => ⟨keySig_relabel hg hf hd n t hn, ?_⟩, nofun, by rw [h.priority, h'.priority, hp]⟩
  refine Option.ext fun w => ?_
  rw [h.key, h'.key]
  constructor
  · rintro ⟨k, g1, g2, g3⟩
    obtain ⟨k, g1', rfl⟩ := List.mem_map.1 g1
    have g1 := g1'
    exact ⟨k, g1, hf _ _ g2, (keyValue_relabel hg he).1 g3⟩
  · rintro ⟨k, g1, g2, g3⟩
    exact ⟨_, List.mem_map_of_mem g1, by simp [relabel, g2], (keyValue_relabel hg he).2 g3⟩

omit hf in
theorem argsFit_relabel {vs : List VarInfo} {ps : List (Nat × Bytes)} :
    ArgsFit vs ps ↔ ArgsFit (vs.map (relabel g f)) (ps.map fun q => (g q.1, q.2)) := by
  constructor
  · rintro ⟨h1, h2⟩
    refine ⟨fun q hq => ?_, ?_⟩
    · obtain ⟨q, hq', rfl⟩ := List.mem_map.1 hq
      have hq := hq'
      obtain ⟨v, h3, h4⟩ := h1 q hq
      exact ⟨_, List.mem_map_of_mem h3, by simp [relabel, h4]⟩
    · rw [List.map_map]; exact nodup_map_inj h2 fun a _ b _ e => hg _ _ e
  · rintro ⟨h1, h2⟩
    refine ⟨fun q hq => ?_, ?_⟩
    · obtain ⟨v, h3, h4⟩ := h1 _ (List.mem_map_of_mem hq)
      obtain ⟨v, h3', rfl⟩ := List.mem_map.1 h3
      have h3 := h3'
      exact ⟨v, h3, hg _ _ h4⟩
    · rw [List.map_map] at h2; exact nodup_map_inj h2 fun a _ b _ e => congrArg g e

theorem actionMeans_relabel {vs : List VarInfo} (hd : Distinct vs) {a a' : RtAction}
    (he : a'.params = a.params.map fun q => (g q.1, q.2)) {ρ ρ' : Env} (h : ActionMeans vs a ρ)
    (h' : ActionMeans (vs.map (relabel g f)) a' ρ') :
    RenamesTo f (paramSig vs) (paramSig (vs.map (relabel g f))) ρ ρ' := by
  refine ⟨nofun, fun n t hn => ⟨keySig_relabel hg hf hd n t hn, ?_⟩, by rw [h.priority, h'.priority]⟩
  refine Option.ext fun w => ?_
  rw [h.param, h'.param, he]
  constructor
  · rintro ⟨k, b, g1, g2, g3, g4⟩
    obtain ⟨k, g1', rfl⟩ := List.mem_map.1 g1
    have g1 := g1'
    obtain ⟨q, g3', e⟩ := List.mem_map.1 g3
    have g3 := g3'
    simp only [Prod.mk.injEq] at e
    obtain ⟨e1, rfl⟩ := e
    have := hg _ _ e1
    exact ⟨k, q.2, g1, hf _ _ g2, by rw [← this]; exact g3', g4⟩
  · rintro ⟨k, b, g1, g2, g3, g4⟩
    exact ⟨_, b, List.mem_map_of_mem g1, by simp [relabel, g2], List.mem_map.2 ⟨_, g3, rfl⟩, g4⟩

end

/-- What is read of the renamed constraint. -/
theorem readConstraint_renamed {pton : Str → Option Bytes} {k : ConstraintKind} {f : Str → Str} {Γ Γ' : Sig} {p p' : Preamble}
    (hs : SameUpTo pton k f p p') (hk : ∀ n t, Γ.key n = some t → Γ'.key (f n) = some t)
    (hp : ∀ n t, Γ.param n = some t → Γ'.param (f n) = some t) {r : Option (ConstraintSource × Expr × SExpr × Ty)}
    (h : ReadConstraint pton k Γ p r) :
    (r = none ∧ ReadConstraint pton k Γ' p' none ∧ Attached k p none ∧ Attached k p' none) ∨
    ∃ src e s t src' e', r = some (src, e, s, t) ∧ HasTy Γ s t ∧
      ReadConstraint pton k Γ' p' (some (src', e', s.renamed f, t)) := by
  cases h with
  | none h =>
    cases hs with
    | none h1 h2 => exact .inl ⟨rfl, .none h2, h1, h2⟩
    | some h1 => cases attached_unique h h1
  | some h1 h2 h3 h4 h5 =>
    cases hs with
    | none g1 => cases attached_unique h1 g1
    | some g1 g2 g3 g4 g5 g6 g7 g8 =>
      cases attached_unique h1 g1
      have e2 := tokenize_iff.2 h2
      have e2' := tokenize_iff.2 g2
      subst e2; subst e2'
      have e3 : parseConstraint ⟨pton⟩ k _ = .ok _ := parseConstraint_iff.2 h3
      cases e3.symm.trans (parseConstraint_iff.2 g3)
      cases h4.symm.trans g4
      exact .inr ⟨_, _, _, _, _, _, rfl, h5, .some g5 g6 g7 g8 (hasTy_renamed hk hp h5)⟩

section
variable {pton : Str → Option Bytes} {R : Renaming} (hR : OneToOne R)
include hR

theorem goodTable_renamed {d d' : TableDecl} (hd : TableRenamed pton R d d') (gd : GoodTable pton d) : GoodTable pton d' := by
  obtain ⟨vs, r, h1, h2, h3⟩ := gd
  refine ⟨vs.map (relabel (R.keyId d.preamble.id) (R.keyName d.preamble.id)), ?_⟩
  have hv := hd.keys ▸ each_map (fun _ _ => keyDecl_relabel (g := R.keyId d.preamble.id) (f := R.keyName d.preamble.id)) h1
  have hn := distinct_relabel (hR.keyId d.preamble.id) (hR.keyName d.preamble.id) h2
  rcases readConstraint_renamed hd.constraint (keySig_relabel (hR.keyId _) (hR.keyName _) h2) nofun h3 with
    ⟨-, h, -⟩ | ⟨_, _, _, _, _, _, -, -, h⟩ <;> exact ⟨_, hv, hn, h⟩

theorem goodAction_renamed {d d' : ActionDecl} (hd : ActionRenamed pton R d d') (gd : GoodAction pton d) :
    GoodAction pton d' := by
  obtain ⟨vs, r, h1, h2, h3⟩ := gd
  refine ⟨vs.map (relabel (R.paramId d.preamble.id) (R.paramName d.preamble.id)), ?_⟩
  have hv := hd.params ▸ each_map (fun _ _ => paramIs_relabel (g := R.paramId d.preamble.id) (f := R.paramName d.preamble.id)) h1
  have hn := distinct_relabel (hR.paramId d.preamble.id) (hR.paramName d.preamble.id) h2
  rcases readConstraint_renamed hd.constraint (Γ := paramSig vs) (Γ' := paramSig _) (fun _ _ h => by cases h)
    (keySig_relabel (hR.paramId _) (hR.paramName _) h2) h3 with
    ⟨-, h, -⟩ | ⟨_, _, _, _, _, _, -, -, h⟩ <;> exact ⟨_, hv, hn, h⟩

theorem tableValue_renamed {d d' : TableDecl} (hd : TableRenamed pton R d d') (gd : GoodTable pton d) {entry : RtEntry}
    (hid : d.preamble.id = entry.tableId) (b : Bool) :
    (Attached .table d.preamble none ↔ Attached .table d'.preamble none) ∧
    (TableValue pton d entry b ↔ TableValue pton d' (renamedEntry R entry) b) := by
  obtain ⟨vs, r, h1, h2, h3⟩ := gd
  have hv := hd.keys ▸ each_map (fun _ _ => keyDecl_relabel (g := R.keyId d.preamble.id) (f := R.keyName d.preamble.id)) h1
  have hn := distinct_relabel (hR.keyId d.preamble.id) (hR.keyName d.preamble.id) h2
  have he : (renamedEntry R entry).matches_ =
      entry.matches_.map fun m => { m with fieldId := R.keyId d.preamble.id m.fieldId } := by rw [hid]; rfl
  have hfit := entryFits_relabel (vs := vs) (f := R.keyName d.preamble.id) (hR.keyId d.preamble.id) he
  rcases readConstraint_renamed hd.constraint (keySig_relabel (hR.keyId _) (hR.keyName _) h2) nofun h3 with
    ⟨rfl, h, a1, a2⟩ | ⟨src, e, s, t, src', e', rfl, hty, h⟩
  · refine ⟨⟨fun _ => a2, fun _ => a1⟩, ⟨?_, ?_⟩⟩
    · rintro ⟨_, _, _, _, _, k1, k2, -⟩
      cases each_unique (R := KeyDecl) (fun _ _ _ => keyDecl_unique) h1 k1
      cases readConstraint_unique h3 k2
    · rintro ⟨_, _, _, _, _, k1, k2, -⟩
      cases each_unique (R := KeyDecl) (fun _ _ _ => keyDecl_unique) hv k1
      cases readConstraint_unique h k2
  · refine ⟨⟨fun g => ?_, fun g => ?_⟩, ⟨?_, ?_⟩⟩
    · cases h3 with | some g' => cases attached_unique g g'
    · cases h with | some g' => cases attached_unique g g'
    · rintro ⟨us, _, _, _, ρ, k1, k2, k3, k4, k5⟩
      cases each_unique (R := KeyDecl) (fun _ _ _ => keyDecl_unique) h1 k1
      cases readConstraint_unique h3 k2
      obtain ⟨ρ', hρ'⟩ := entryMeans_some hn (hfit.1 k3)
      exact ⟨_, _, _, _, ρ', hv, h, hfit.1 k3, hρ',
        evaluates_renamed (entryMeans_relabel (hR.keyId _) (hR.keyName _) h2 he rfl k4 hρ') k5⟩
    · rintro ⟨us, _, _, _, ρ', k1, k2, k3, k4, k5⟩
      cases each_unique (R := KeyDecl) (fun _ _ _ => keyDecl_unique) hv k1
      cases readConstraint_unique h k2
      obtain ⟨ρ, hρ⟩ := entryMeans_some h2 (hfit.2 k3)
      exact ⟨_, _, _, _, ρ, h1, h3, hfit.2 k3, hρ,
        evaluates_unrenamed (entryMeans_relabel (hR.keyId _) (hR.keyName _) h2 he rfl hρ k4) k5 hty⟩

theorem actionValue_renamed {d d' : ActionDecl} (hd : ActionRenamed pton R d d') (gd : GoodAction pton d) {a : RtAction}
    (hid : d.preamble.id = a.actionId) (b : Bool) :
    (Attached .action d.preamble none ↔ Attached .action d'.preamble none) ∧
    (ActionValue pton d a b ↔ ActionValue pton d' (renamedAction R a) b) := by
  obtain ⟨vs, r, h1, h2, h3⟩ := gd
  have hv := hd.params ▸ each_map (fun _ _ => paramIs_relabel (g := R.paramId d.preamble.id) (f := R.paramName d.preamble.id)) h1
  have hn := distinct_relabel (hR.paramId d.preamble.id) (hR.paramName d.preamble.id) h2
  have he : (renamedAction R a).params = a.params.map fun q => (R.paramId d.preamble.id q.1, q.2) := by rw [hid]; rfl
  have hfit : ArgsFit vs a.params ↔ ArgsFit _ (renamedAction R a).params :=
    he ▸ argsFit_relabel (vs := vs) (f := R.paramName d.preamble.id) (hR.paramId d.preamble.id)
  rcases readConstraint_renamed hd.constraint (Γ := paramSig vs) (Γ' := paramSig _) (fun _ _ h => by cases h)
    (keySig_relabel (hR.paramId _) (hR.paramName _) h2) h3 with ⟨rfl, h, a1, a2⟩ | ⟨src, e, s, t, src', e', rfl, hty, h⟩
  · refine ⟨⟨fun _ => a2, fun _ => a1⟩, ⟨?_, ?_⟩⟩
    · rintro ⟨_, _, _, _, _, k1, k2, -⟩
      cases each_unique (R := ParamIs) (fun _ _ _ => paramIs_unique) h1 k1
      cases readConstraint_unique h3 k2
    · rintro ⟨_, _, _, _, _, k1, k2, -⟩
      cases each_unique (R := ParamIs) (fun _ _ _ => paramIs_unique) hv k1
      cases readConstraint_unique h k2
  · refine ⟨⟨fun g => ?_, fun g => ?_⟩, ⟨?_, ?_⟩⟩
    · cases h3 with | some g' => cases attached_unique g g'
    · cases h with | some g' => cases attached_unique g g'
    · rintro ⟨us, _, _, _, ρ, k1, k2, k3, k4, k5⟩
      cases each_unique (R := ParamIs) (fun _ _ _ => paramIs_unique) h1 k1
      cases readConstraint_unique h3 k2
      obtain ⟨ρ', hρ'⟩ := actionMeans_some hn (hfit.1 k3)
      exact ⟨_, _, _, _, ρ', hv, h, hfit.1 k3, hρ',
        evaluates_renamed (actionMeans_relabel (hR.paramId _) (hR.paramName _) h2 he k4 hρ') k5⟩
    · rintro ⟨us, _, _, _, ρ', k1, k2, k3, k4, k5⟩
      cases each_unique (R := ParamIs) (fun _ _ _ => paramIs_unique) hv k1
      cases readConstraint_unique h k2
      obtain ⟨ρ, hρ⟩ := actionMeans_some h2 (hfit.2 k3)
      exact ⟨_, _, _, _, ρ, h1, h3, hfit.2 k3, hρ,
        evaluates_unrenamed (actionMeans_relabel (hR.paramId _) (hR.paramName _) h2 he hρ k4) k5 hty⟩

end

/-! ### Programs -/

section
variable {pton : Str → Option Bytes} {R : Renaming} (hR : OneToOne R) {p p' : P4Info} (hp : ProgramRenamed pton R p p')
include hR hp

theorem actionAccepted_renamed (ga : ∀ d ∈ p.actions, GoodAction pton d) (a : RtAction) :
    ActionAccepted pton p a ↔ ActionAccepted pton p' (renamedAction R a) := by
  constructor
  · rintro ⟨d, h1, h2, h3⟩
    obtain ⟨d', h4, h5⟩ := each_mem_left hp.actions d h1
    obtain ⟨e1, e2⟩ := actionValue_renamed hR h5 (ga d h1) h2 true
    exact ⟨d', h4, by rw [h5.id, h2]; rfl, by rwa [← e1, ← e2]⟩
  · rintro ⟨d', h1, h2, h3⟩
    obtain ⟨d, h4, h5⟩ := each_mem hp.actions d' h1
    have h6 : d.preamble.id = a.actionId := hR.actionId _ _ (h5.id.symm.trans h2)
    obtain ⟨e1, e2⟩ := actionValue_renamed hR h5 (ga d h4) h6 true
    exact ⟨d, h4, h6, by rwa [e1, e2]⟩

theorem actionsAccepted_renamed (ga : ∀ d ∈ p.actions, GoodAction pton d) (t : Option TableAction) :
    ActionsAccepted pton p t ↔ ActionsAccepted pton p' (t.map (renamedTableAction R)) := by
  constructor
  · rintro (_ | h | h)
    · exact .none
    · exact .one ((actionAccepted_renamed hR hp ga _).1 h)
    · refine .set fun b hb => ?_
      obtain ⟨a, ha, rfl⟩ := List.mem_map.1 hb
      exact (actionAccepted_renamed hR hp ga _).1 (h a ha)
  · intro h
    match t, h with
    | none, _ => exact .none
    | some (.action a), .one h => exact .one ((actionAccepted_renamed hR hp ga _).2 h)
    | some (.actionSet as), .set h =>
      exact .set fun a ha => (actionAccepted_renamed hR hp ga _).2 (h _ (List.mem_map_of_mem ha))

theorem accepted_renamed (gt : ∀ d ∈ p.tables, GoodTable pton d) (ga : ∀ d ∈ p.actions, GoodAction pton d) (entry : RtEntry) :
    Accepted pton p entry ↔ Accepted pton p' (renamedEntry R entry) := by
  constructor
  · rintro ⟨d, h1, h2, h3, h6⟩
    obtain ⟨d', h4, h5⟩ := each_mem_left hp.tables d h1
    obtain ⟨e1, e2⟩ := tableValue_renamed hR h5 (gt d h1) h2 true
    exact ⟨d', h4, by rw [h5.id, h2]; rfl, by rwa [← e1, ← e2], (actionsAccepted_renamed hR hp ga _).1 h6⟩
  · rintro ⟨d', h1, h2, h3, h6⟩
    obtain ⟨d, h4, h5⟩ := each_mem hp.tables d' h1
    have h7 : d.preamble.id = entry.tableId := hR.tableId _ _ (h5.id.symm.trans h2)
    obtain ⟨e1, e2⟩ := tableValue_renamed hR h5 (gt d h4) h7 true
    exact ⟨d, h4, h7, by rwa [e1, e2], (actionsAccepted_renamed hR hp ga _).2 h6⟩

omit hR in
theorem nonNeg_renamed (hw : NonNegProgram p) : NonNegProgram p' := by
  refine ⟨fun d' hd f hf => ?_, fun d' hd f hf => ?_⟩
  · obtain ⟨d, h1, h2⟩ := each_mem hp.tables d' hd
    rw [h2.keys, List.mem_map] at hf
    obtain ⟨f, hf, rfl⟩ := hf
    exact hw.1 d h1 f hf
  · obtain ⟨d, h1, h2⟩ := each_mem hp.actions d' hd
    rw [h2.params, List.mem_map] at hf
    obtain ⟨f, hf, rfl⟩ := hf
    exact hw.2 d h1 f hf

end

theorem p4ToConstraintInfo_renamed {sys : Sys} {R : Renaming} (hR : OneToOne R) {p p' : P4Info}
    (hp : ProgramRenamed sys.inetPton6 R p p') (h : ∃ ci, p4ToConstraintInfo sys p = .ok ci) :
    ∃ ci', p4ToConstraintInfo sys p' = .ok ci' := by
  obtain ⟨h1, h2, h3, h4⟩ := p4ToConstraintInfo_succeeds.1 h
  refine p4ToConstraintInfo_succeeds.2 ⟨?_, ?_, fun d' hd => ?_, fun d' hd => ?_⟩
  · rw [each_map_eq (f := fun d => R.tableId d.preamble.id) (fun a b h => h.id) hp.tables]
    exact nodup_map_inj h1 fun a _ b _ e => hR.tableId _ _ e
  · rw [each_map_eq (f := fun d => R.actionId d.preamble.id) (fun a b h => h.id) hp.actions]
    exact nodup_map_inj h2 fun a _ b _ e => hR.actionId _ _ e
  · obtain ⟨d, g1, g2⟩ := each_mem hp.tables d' hd
    exact goodTable_renamed hR g2 (h3 d g1)
  · obtain ⟨d, g1, g2⟩ := each_mem hp.actions d' hd
    exact goodAction_renamed hR g2 (h4 d g1)

end P4C
