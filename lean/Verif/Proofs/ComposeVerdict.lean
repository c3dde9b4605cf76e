import Verif.Proofs.Compose
/-!
# Verdicts on constraints made from the texts of other constraints
-/
namespace P4C
open Spec

theorem entryMeans_unique {vs : List VarInfo} {entry : RtEntry} {ρ ρ' : Env} (h : EntryMeans vs entry ρ)
    (h' : EntryMeans vs entry ρ') : ρ = ρ' := by
  have h1 : ρ.key = ρ'.key := funext fun n => Option.ext fun v => by rw [h.key, h'.key]
  have h2 : ρ.param = ρ'.param := funext fun n => by rw [h.param, h'.param]
  have h3 := h.priority.trans h'.priority.symm
  cases ρ; cases ρ'; simp_all

theorem actionMeans_unique {vs : List VarInfo} {a : RtAction} {ρ ρ' : Env} (h : ActionMeans vs a ρ)
    (h' : ActionMeans vs a ρ') : ρ = ρ' := by
  have h1 : ρ.key = ρ'.key := funext fun n => by rw [h.key, h'.key]
  have h2 : ρ.param = ρ'.param := funext fun n => Option.ext fun v => by rw [h.param, h'.param]
  have h3 := h.priority.trans h'.priority.symm
  cases ρ; cases ρ'; simp_all

section
variable {pton : Str → Option Bytes} {d : TableDecl} {vs : List VarInfo} {src : ConstraintSource} {e : Expr} {s : SExpr}
  {entry : RtEntry}

theorem tableValue_iff {t : Ty} (hv : Each KeyDecl d.matchFields vs)
    (hr : ReadConstraint pton .table (keySig vs) d.preamble (some (src, e, s, t))) (b : Bool) :
    TableValue pton d entry b ↔ t = .boolean ∧ EntryFits vs entry ∧
      ∃ ρ, EntryMeans vs entry ρ ∧ Evaluates (keySig vs) ρ s .boolean (.bool b) := by
  constructor
  · rintro ⟨vs', src', e', s', ρ, h1, h2, h3, h4, h5⟩
    cases each_unique (R := KeyDecl) (fun _ _ _ => keyDecl_unique) hv h1
    have hu := readConstraint_unique hr h2
    simp only [Option.some.injEq, Prod.mk.injEq] at hu
    obtain ⟨rfl, rfl, rfl, rfl⟩ := hu
    exact ⟨rfl, h3, ρ, h4, h5⟩
  · rintro ⟨rfl, h3, ρ, h4, h5⟩
    exact ⟨vs, src, e, s, ρ, hv, hr, h3, h4, h5⟩

theorem actionValue_iff {d : ActionDecl} {a : RtAction} {t : Ty} (hv : Each ParamIs d.params vs)
    (hr : ReadConstraint pton .action (paramSig vs) d.preamble (some (src, e, s, t))) (b : Bool) :
    ActionValue pton d a b ↔ t = .boolean ∧ ArgsFit vs a.params ∧
      ∃ ρ, ActionMeans vs a ρ ∧ Evaluates (paramSig vs) ρ s .boolean (.bool b) := by
  constructor
  · rintro ⟨vs', src', e', s', ρ, h1, h2, h3, h4, h5⟩
    cases each_unique (R := ParamIs) (fun _ _ _ => paramIs_unique) hv h1
    have hu := readConstraint_unique hr h2
    simp only [Option.some.injEq, Prod.mk.injEq] at hu
    obtain ⟨rfl, rfl, rfl, rfl⟩ := hu
    exact ⟨rfl, h3, ρ, h4, h5⟩
  · rintro ⟨rfl, h3, ρ, h4, h5⟩
    exact ⟨vs, src, e, s, ρ, hv, hr, h3, h4, h5⟩

end

theorem tableValue_unique {pton : Str → Option Bytes} {d : TableDecl} {entry : RtEntry} :
    ¬ (TableValue pton d entry true ∧ TableValue pton d entry false) := by
  rintro ⟨⟨vs, src, e, s, ρ, h1, h2, h3, h4, h5⟩, h⟩
  obtain ⟨_, _, ρ', h6, h7⟩ := (tableValue_iff h1 h2 false).1 h
  cases entryMeans_unique h4 h6
  have := (evaluates_unique h5 h7).2
  simp at this

theorem actionValue_unique {pton : Str → Option Bytes} {c : ActionDecl} {a : RtAction} :
    ¬ (ActionValue pton c a true ∧ ActionValue pton c a false) := by
  rintro ⟨⟨vs, src, e, s, ρ, h1, h2, h3, h4, h5⟩, h⟩
  obtain ⟨_, _, ρ', h6, h7⟩ := (actionValue_iff h1 h2 false).1 h
  cases actionMeans_unique h4 h6
  have := (evaluates_unique h5 h7).2
  simp at this

/-- The values of constraints made from other constraints, in terms of the values of those. -/
def ConnValue : Spec.Conn → (Bool → Prop) → (Bool → Prop) → Prop
  | .and, va, vb => va true ∧ vb true
  | .or, va, vb => va true ∨ (va false ∧ vb true)
  | .implies, va, vb => va false ∨ (va true ∧ vb true)

theorem evaluates_conn {Γ : Sig} {ρ : Env} {o : Spec.Conn} {s u : SExpr} :
    Evaluates Γ ρ (.conn o s u) .boolean (.bool true) ↔
      ConnValue o (fun b => Evaluates Γ ρ s .boolean (.bool b)) (fun b => Evaluates Γ ρ u .boolean (.bool b)) := by
  cases o with
  | and => exact evaluates_and
  | or => exact evaluates_or
  | implies => exact evaluates_implies

theorem connValue_congr {o : Spec.Conn} {E : Env → Prop} {p : Prop} {f g : Env → Bool → Prop}
    (hu : ∀ ρ ρ', E ρ → E ρ' → ρ = ρ') :
    (p ∧ ∃ ρ, E ρ ∧ ConnValue o (f ρ) (g ρ)) ↔
      ConnValue o (fun b => p ∧ ∃ ρ, E ρ ∧ f ρ b) (fun b => p ∧ ∃ ρ, E ρ ∧ g ρ b) := by
  cases o with
  | and =>
    constructor
    · rintro ⟨hp, ρ, h1, h2, h3⟩
      exact ⟨⟨hp, ρ, h1, h2⟩, hp, ρ, h1, h3⟩
    · rintro ⟨⟨hp, ρ, h1, h2⟩, _, ρ', h3, h4⟩
      cases hu _ _ h1 h3
      exact ⟨hp, ρ, h1, h2, h4⟩
  | or =>
    constructor
    · rintro ⟨hp, ρ, h1, h2 | ⟨h2, h3⟩⟩
      · exact .inl ⟨hp, ρ, h1, h2⟩
      · exact .inr ⟨⟨hp, ρ, h1, h2⟩, hp, ρ, h1, h3⟩
    · rintro (⟨hp, ρ, h1, h2⟩ | ⟨⟨hp, ρ, h1, h2⟩, _, ρ', h3, h4⟩)
      · exact ⟨hp, ρ, h1, .inl h2⟩
      · cases hu _ _ h1 h3
        exact ⟨hp, ρ, h1, .inr ⟨h2, h4⟩⟩
  | implies =>
    constructor
    · rintro ⟨hp, ρ, h1, h2 | ⟨h2, h3⟩⟩
      · exact .inl ⟨hp, ρ, h1, h2⟩
      · exact .inr ⟨⟨hp, ρ, h1, h2⟩, hp, ρ, h1, h3⟩
    · rintro (⟨hp, ρ, h1, h2⟩ | ⟨⟨hp, ρ, h1, h2⟩, _, ρ', h3, h4⟩)
      · exact ⟨hp, ρ, h1, .inl h2⟩
      · cases hu _ _ h1 h3
        exact ⟨hp, ρ, h1, .inr ⟨h2, h4⟩⟩

/-! ### Tables -/

theorem says_read {pton : Str → Option Bytes} {k : ConstraintKind} {Γ : Sig} {p : Preamble} {s : Str}
    {r : Option (ConstraintSource × Expr × SExpr × Ty)} (h : Says k p s) (hr : ReadConstraint pton k Γ p r) :
    ∃ src e u t, r = some (src, e, u, t) ∧ src.str = s ∧ Attached k p (some src) := by
  obtain ⟨src, h1, h2⟩ := h
  cases hr with
  | none h3 => cases attached_unique h1 h3
  | @some src' _ e s' t h3 =>
    cases attached_unique h1 h3
    exact ⟨src, e, s', t, rfl, h2, h1⟩

section
variable {pton : Str → Option Bytes} {o : Spec.Conn} {a b d : TableDecl} {entry : RtEntry}

theorem tableValue_joined (h : TableJoined o a b d) (ga : GoodTable pton a) (gb : GoodTable pton b) (g : GoodTable pton d) :
    TableValue pton d entry true ↔ ConnValue o (TableValue pton a entry) (TableValue pton b entry) := by
  obtain ⟨_, ⟨ka, kb⟩, s, t, xa, xb, x, ca, cb⟩ := h
  obtain ⟨vs, r, g1, _, g2⟩ := g
  obtain ⟨vsa, ra, ga1, _, ga2⟩ := ga
  obtain ⟨vsb, rb, gb1, _, gb2⟩ := gb
  have ga1' := ka ▸ ga1
  have gb1' := kb ▸ gb1
  cases each_unique (R := KeyDecl) (fun _ _ _ => keyDecl_unique) g1 ga1'
  cases each_unique (R := KeyDecl) (fun _ _ _ => keyDecl_unique) g1 gb1'
  obtain ⟨src, e, u, ty, rfl, rfl', _⟩ := says_read x g2
  obtain ⟨srca, ea, ua, tya, rfl, rfl, _⟩ := says_read xa ga2
  obtain ⟨srcb, eb, ub, tyb, rfl, rfl, _⟩ := says_read xb gb2
  obtain ⟨rfl, rfl, rfl, rfl⟩ := joined_read ga2 ca gb2 cb g2 rfl'
  have := connValue_congr (o := o) (p := EntryFits vs entry) (E := EntryMeans vs entry)
    (f := fun ρ b => Evaluates (keySig vs) ρ ua .boolean (.bool b)) (g := fun ρ b => Evaluates (keySig vs) ρ ub .boolean (.bool b))
    (fun _ _ => entryMeans_unique)
  have va : TableValue pton a entry = fun b => EntryFits vs entry ∧
      ∃ ρ, EntryMeans vs entry ρ ∧ Evaluates (keySig vs) ρ ua .boolean (.bool b) :=
    funext fun c => propext (by simpa using tableValue_iff ga1 ga2 c)
  have vb : TableValue pton b entry = fun b => EntryFits vs entry ∧
      ∃ ρ, EntryMeans vs entry ρ ∧ Evaluates (keySig vs) ρ ub .boolean (.bool b) :=
    funext fun c => propext (by simpa using tableValue_iff gb1 gb2 c)
  rw [tableValue_iff g1 g2, va, vb, ← this]
  simp only [evaluates_conn, true_and]

theorem tableValue_negated (h : TableNegated a d) (ga : GoodTable pton a) (g : GoodTable pton d) (b : Bool) :
    TableValue pton d entry (!b) ↔ TableValue pton a entry b := by
  obtain ⟨_, ka, s, xa, x, ca⟩ := h
  obtain ⟨vs, r, g1, _, g2⟩ := g
  obtain ⟨vsa, ra, ga1, _, ga2⟩ := ga
  have ga1' := ka ▸ ga1
  cases each_unique (R := KeyDecl) (fun _ _ _ => keyDecl_unique) g1 ga1'
  obtain ⟨src, e, u, ty, rfl, rfl', _⟩ := says_read x g2
  obtain ⟨srca, ea, ua, tya, rfl, rfl, _⟩ := says_read xa ga2
  obtain ⟨rfl, rfl, rfl⟩ := negated_read ga2 ca g2 rfl'
  rw [tableValue_iff g1 g2, tableValue_iff ga1 ga2]
  simp only [evaluates_not]

/-- When the table with the joined constraint is well formed. -/
theorem goodTable_joined (h : TableJoined o a b d) (ga : GoodTable pton a) (gb : GoodTable pton b) :
    GoodTable pton d ↔ TableBoolean pton a ∧ TableBoolean pton b := by
  obtain ⟨_, ⟨ka, kb⟩, s, t, xa, xb, x, ca, cb⟩ := h
  obtain ⟨vs, ra, ga1, dv, ga2⟩ := ga
  obtain ⟨vsb, rb, gb1, _, gb2⟩ := gb
  have gb1' := (kb.trans ka.symm) ▸ gb1
  cases each_unique (R := KeyDecl) (fun _ _ _ => keyDecl_unique) ga1 gb1'
  obtain ⟨srca, ea, ua, tya, rfl, rfl, _⟩ := says_read xa ga2
  obtain ⟨srcb, eb, ub, tyb, rfl, rfl, _⟩ := says_read xb gb2
  constructor
  · rintro ⟨vs', r, g1, _, g2⟩
    cases each_unique (R := KeyDecl) (fun _ _ _ => keyDecl_unique) ga1 (ka ▸ g1)
    obtain ⟨src, e, u, ty, rfl, rfl', _⟩ := says_read x g2
    obtain ⟨rfl, rfl, rfl, rfl⟩ := joined_read ga2 ca gb2 cb g2 rfl'
    exact ⟨⟨vs, _, _, _, ga1, ga2⟩, vs, _, _, _, gb1, gb2⟩
  · rintro ⟨⟨va, _, _, _, a1, a2⟩, vb, _, _, _, b1, b2⟩
    cases each_unique (R := KeyDecl) (fun _ _ _ => keyDecl_unique) ga1 a1
    cases each_unique (R := KeyDecl) (fun _ _ _ => keyDecl_unique) gb1 b1
    have ha := readConstraint_unique ga2 a2
    have hb := readConstraint_unique gb2 b2
    simp only [Option.some.injEq, Prod.mk.injEq] at ha hb
    obtain ⟨src, h1, h2⟩ := x
    obtain ⟨e, h3⟩ := read_joined ga2 ca gb2 cb h1 h2 ha.2.2.2 hb.2.2.2
    exact ⟨vs, _, ka ▸ ga1, dv, h3⟩

theorem goodTable_negated (h : TableNegated a d) (ga : GoodTable pton a) :
    GoodTable pton d ↔ TableBoolean pton a := by
  obtain ⟨_, ka, s, xa, x, ca⟩ := h
  obtain ⟨vs, ra, ga1, dv, ga2⟩ := ga
  obtain ⟨srca, ea, ua, tya, rfl, rfl, _⟩ := says_read xa ga2
  constructor
  · rintro ⟨vs', r, g1, _, g2⟩
    cases each_unique (R := KeyDecl) (fun _ _ _ => keyDecl_unique) ga1 (ka ▸ g1)
    obtain ⟨src, e, u, ty, rfl, rfl', _⟩ := says_read x g2
    obtain ⟨rfl, rfl, rfl⟩ := negated_read ga2 ca g2 rfl'
    exact ⟨vs, _, _, _, ga1, ga2⟩
  · rintro ⟨va, _, _, _, a1, a2⟩
    cases each_unique (R := KeyDecl) (fun _ _ _ => keyDecl_unique) ga1 a1
    have ha := readConstraint_unique ga2 a2
    simp only [Option.some.injEq, Prod.mk.injEq] at ha
    obtain ⟨src, h1, h2⟩ := x
    obtain ⟨e, h3⟩ := read_negated ga2 ca h1 h2 ha.2.2.2
    exact ⟨vs, _, ka ▸ ga1, dv, h3⟩

end

/-! ### Actions -/

section
variable {pton : Str → Option Bytes} {o : Spec.Conn} {a b d : ActionDecl} {i : RtAction}

theorem actionValue_joined (h : ActionJoined o a b d) (ga : GoodAction pton a) (gb : GoodAction pton b) (g : GoodAction pton d) :
    ActionValue pton d i true ↔ ConnValue o (ActionValue pton a i) (ActionValue pton b i) := by
  obtain ⟨_, ⟨ka, kb⟩, s, t, xa, xb, x, ca, cb⟩ := h
  obtain ⟨vs, r, g1, _, g2⟩ := g
  obtain ⟨vsa, ra, ga1, _, ga2⟩ := ga
  obtain ⟨vsb, rb, gb1, _, gb2⟩ := gb
  have ga1' := ka ▸ ga1
  have gb1' := kb ▸ gb1
  cases each_unique (R := ParamIs) (fun _ _ _ => paramIs_unique) g1 ga1'
  cases each_unique (R := ParamIs) (fun _ _ _ => paramIs_unique) g1 gb1'
  obtain ⟨src, e, u, ty, rfl, rfl', _⟩ := says_read x g2
  obtain ⟨srca, ea, ua, tya, rfl, rfl, _⟩ := says_read xa ga2
  obtain ⟨srcb, eb, ub, tyb, rfl, rfl, _⟩ := says_read xb gb2
  obtain ⟨rfl, rfl, rfl, rfl⟩ := joined_read ga2 ca gb2 cb g2 rfl'
  have := connValue_congr (o := o) (p := ArgsFit vs i.params) (E := ActionMeans vs i)
    (f := fun ρ b => Evaluates (paramSig vs) ρ ua .boolean (.bool b)) (g := fun ρ b => Evaluates (paramSig vs) ρ ub .boolean (.bool b))
    (fun _ _ => actionMeans_unique)
  have va : ActionValue pton a i = fun b => ArgsFit vs i.params ∧
      ∃ ρ, ActionMeans vs i ρ ∧ Evaluates (paramSig vs) ρ ua .boolean (.bool b) :=
    funext fun c => propext (by simpa using actionValue_iff ga1 ga2 c)
  have vb : ActionValue pton b i = fun b => ArgsFit vs i.params ∧
      ∃ ρ, ActionMeans vs i ρ ∧ Evaluates (paramSig vs) ρ ub .boolean (.bool b) :=
    funext fun c => propext (by simpa using actionValue_iff gb1 gb2 c)
  rw [actionValue_iff g1 g2, va, vb, ← this]
  simp only [evaluates_conn, true_and]

theorem actionValue_negated (h : ActionNegated a d) (ga : GoodAction pton a) (g : GoodAction pton d) (b : Bool) :
    ActionValue pton d i (!b) ↔ ActionValue pton a i b := by
  obtain ⟨_, ka, s, xa, x, ca⟩ := h
  obtain ⟨vs, r, g1, _, g2⟩ := g
  obtain ⟨vsa, ra, ga1, _, ga2⟩ := ga
  have ga1' := ka ▸ ga1
  cases each_unique (R := ParamIs) (fun _ _ _ => paramIs_unique) g1 ga1'
  obtain ⟨src, e, u, ty, rfl, rfl', _⟩ := says_read x g2
  obtain ⟨srca, ea, ua, tya, rfl, rfl, _⟩ := says_read xa ga2
  obtain ⟨rfl, rfl, rfl⟩ := negated_read ga2 ca g2 rfl'
  rw [actionValue_iff g1 g2, actionValue_iff ga1 ga2]
  simp only [evaluates_not]

/-- When the action with the joined constraint is well formed. -/
theorem goodAction_joined (h : ActionJoined o a b d) (ga : GoodAction pton a) (gb : GoodAction pton b) :
    GoodAction pton d ↔ ActionBoolean pton a ∧ ActionBoolean pton b := by
  obtain ⟨_, ⟨ka, kb⟩, s, t, xa, xb, x, ca, cb⟩ := h
  obtain ⟨vs, ra, ga1, dv, ga2⟩ := ga
  obtain ⟨vsb, rb, gb1, _, gb2⟩ := gb
  have gb1' := (kb.trans ka.symm) ▸ gb1
  cases each_unique (R := ParamIs) (fun _ _ _ => paramIs_unique) ga1 gb1'
  obtain ⟨srca, ea, ua, tya, rfl, rfl, _⟩ := says_read xa ga2
  obtain ⟨srcb, eb, ub, tyb, rfl, rfl, _⟩ := says_read xb gb2
  constructor
  · rintro ⟨vs', r, g1, _, g2⟩
    cases each_unique (R := ParamIs) (fun _ _ _ => paramIs_unique) ga1 (ka ▸ g1)
    obtain ⟨src, e, u, ty, rfl, rfl', _⟩ := says_read x g2
    obtain ⟨rfl, rfl, rfl, rfl⟩ := joined_read ga2 ca gb2 cb g2 rfl'
    exact ⟨⟨vs, _, _, _, ga1, ga2⟩, vs, _, _, _, gb1, gb2⟩
  · rintro ⟨⟨va, _, _, _, a1, a2⟩, vb, _, _, _, b1, b2⟩
    cases each_unique (R := ParamIs) (fun _ _ _ => paramIs_unique) ga1 a1
    cases each_unique (R := ParamIs) (fun _ _ _ => paramIs_unique) gb1 b1
    have ha := readConstraint_unique ga2 a2
    have hb := readConstraint_unique gb2 b2
    simp only [Option.some.injEq, Prod.mk.injEq] at ha hb
    obtain ⟨src, h1, h2⟩ := x
    obtain ⟨e, h3⟩ := read_joined ga2 ca gb2 cb h1 h2 ha.2.2.2 hb.2.2.2
    exact ⟨vs, _, ka ▸ ga1, dv, h3⟩

theorem goodAction_negated (h : ActionNegated a d) (ga : GoodAction pton a) :
    GoodAction pton d ↔ ActionBoolean pton a := by
  obtain ⟨_, ka, s, xa, x, ca⟩ := h
  obtain ⟨vs, ra, ga1, dv, ga2⟩ := ga
  obtain ⟨srca, ea, ua, tya, rfl, rfl, _⟩ := says_read xa ga2
  constructor
  · rintro ⟨vs', r, g1, _, g2⟩
    cases each_unique (R := ParamIs) (fun _ _ _ => paramIs_unique) ga1 (ka ▸ g1)
    obtain ⟨src, e, u, ty, rfl, rfl', _⟩ := says_read x g2
    obtain ⟨rfl, rfl, rfl⟩ := negated_read ga2 ca g2 rfl'
    exact ⟨vs, _, _, _, ga1, ga2⟩
  · rintro ⟨va, _, _, _, a1, a2⟩
    cases each_unique (R := ParamIs) (fun _ _ _ => paramIs_unique) ga1 a1
    have ha := readConstraint_unique ga2 a2
    simp only [Option.some.injEq, Prod.mk.injEq] at ha
    obtain ⟨src, h1, h2⟩ := x
    obtain ⟨e, h3⟩ := read_negated ga2 ca h1 h2 ha.2.2.2
    exact ⟨vs, _, ka ▸ ga1, dv, h3⟩

end

/-! ### Programs -/

theorem actionsAccepted_congr {pton : Str → Option Bytes} {p p' : P4Info} (h : p.actions = p'.actions) {ta : Option TableAction}
    (ha : ActionsAccepted pton p ta) : ActionsAccepted pton p' ta := by
  have key : ∀ a, ActionAccepted pton p a → ActionAccepted pton p' a := by
    rintro a ⟨d, h1, h2⟩
    exact ⟨d, h ▸ h1, h2⟩
  cases ha with
  | none => exact .none
  | one h => exact .one (key _ h)
  | set h => exact .set fun a ha => key _ (h a ha)

theorem says_attached {k : ConstraintKind} {p : Preamble} {s : Str} (h : Says k p s) : ¬ Attached k p none := by
  intro hn
  obtain ⟨src, h1, _⟩ := h
  cases attached_unique h1 hn

section
variable {sys : Sys} {ts : List TableDecl} {as : List ActionDecl} {d : TableDecl} {ci : ConstraintInfo}
  (h : p4ToConstraintInfo sys ⟨d :: ts, as⟩ = .ok ci) (hw : NonNegProgram ⟨d :: ts, as⟩) {s : Str} (hd : Says .table d.preamble s)
  {entry : RtEntry}

include h in
theorem goodTable_of : GoodTable sys.inetPton6 d := (p4ToConstraintInfo_succeeds.1 ⟨ci, h⟩).2.2.1 d (by simp)

include h hw hd in
theorem verdict_here (hid : entry.tableId = d.preamble.id) :
    (reasonEntryViolatesConstraint entry ci = .ok [] ↔
      TableValue sys.inetPton6 d entry true ∧ ActionsAccepted sys.inetPton6 ⟨[], as⟩ entry.action) ∧
    (∀ m, reasonEntryViolatesConstraint entry ci = .ok m →
      TableValue sys.inetPton6 d entry true ∨ TableValue sys.inetPton6 d entry false) ∧
    (∀ m, entry.action = none → reasonEntryViolatesConstraint entry ci = .ok m → m ≠ [] →
      TableValue sys.inetPton6 d entry false) := by
  obtain ⟨ti, hl, hp⟩ := table_declared h (d := d) (by simp)
  rw [← hid] at hl
  have hno := says_attached hd
  have hval := fun m => @tableReason_value sys d ti hp (hw.1 d (by simp)) entry m
  refine ⟨?_, fun m he => ?_, fun m ha he hm => ?_⟩
  · rw [reason_accepts h hw]
    constructor
    · rintro ⟨d', h1, h2, h3, h4⟩
      obtain ⟨ti', hl', hp'⟩ := table_declared h h1
      have hnd := (p4ToConstraintInfo_succeeds.1 ⟨ci, h⟩).1
      have : d' = d := by
        rcases List.mem_cons.1 h1 with h1 | h1
        · exact h1
        · exfalso
          simp only [List.map_cons, List.nodup_cons, List.mem_map, not_exists, not_and] at hnd
          exact hnd.1 d' h1 (h2.trans hid)
      subst this
      exact ⟨h3.resolve_left hno, actionsAccepted_congr (by rfl) h4⟩
    · rintro ⟨h1, h2⟩
      exact ⟨d, by simp, hid.symm, .inr h1, actionsAccepted_congr (by rfl) h2⟩
  · rw [reason_found hl, Res.bind_eq_ok] at he
    obtain ⟨r, hr, _⟩ := he
    by_cases hn : r = []
    · exact .inl (((hval _ hr).1 hn).resolve_left hno)
    · exact .inr ((hval _ hr).2 hn)
  · rw [reason_noAction hl ha] at he
    exact (hval _ he).2 hm

include h hw in
theorem verdict_elsewhere (hid : entry.tableId ≠ d.preamble.id) :
    reasonEntryViolatesConstraint entry ci = .ok [] ↔ Accepted sys.inetPton6 ⟨ts, as⟩ entry := by
  rw [reason_accepts h hw]
  constructor
  · rintro ⟨d', h1, h2, h3, h4⟩
    rcases List.mem_cons.1 h1 with rfl | h1
    · exact (hid h2.symm).elim
    · exact ⟨d', h1, h2, h3, actionsAccepted_congr (by rfl) h4⟩
  · rintro ⟨d', h1, h2, h3, h4⟩
    exact ⟨d', List.mem_cons_of_mem _ h1, h2, h3, actionsAccepted_congr (by rfl) h4⟩

end

section
variable {sys : Sys} {ts : List TableDecl} {as : List ActionDecl} {d : ActionDecl} {ci : ConstraintInfo}
  (h : p4ToConstraintInfo sys ⟨ts, d :: as⟩ = .ok ci) (hw : NonNegProgram ⟨ts, d :: as⟩) {s : Str} (hd : Says .action d.preamble s)
  {a : RtAction}

include h in
theorem goodAction_of : GoodAction sys.inetPton6 d := (p4ToConstraintInfo_succeeds.1 ⟨ci, h⟩).2.2.2 d (by simp)

include h hw hd in
theorem actionVerdict_here (hid : a.actionId = d.preamble.id) :
    (reasonAction a ci = .ok [] ↔ ActionValue sys.inetPton6 d a true) ∧
    (∀ m, reasonAction a ci = .ok m → ActionValue sys.inetPton6 d a true ∨ ActionValue sys.inetPton6 d a false) ∧
    (∀ m, reasonAction a ci = .ok m → m ≠ [] → ActionValue sys.inetPton6 d a false) := by
  obtain ⟨ai, hl, hp⟩ := action_declared h (d := d) (by simp)
  rw [← hid] at hl
  have hno := says_attached hd
  have hval := fun m => @actionReason_value sys d ai hp (hw.2 d (by simp)) a m
  rw [reasonAction_info hl]
  refine ⟨?_, fun m he => ?_, fun m he hm => (hval _ he).2 hm⟩
  · rw [actionReason_accepts hp (hw.2 d (by simp))]
    exact ⟨fun h => h.resolve_left hno, .inr⟩
  · by_cases hn : m = []
    · exact .inl (((hval _ he).1 hn).resolve_left hno)
    · exact .inr ((hval _ he).2 hn)

include h hw in
theorem actionVerdict_elsewhere (hid : a.actionId ≠ d.preamble.id) :
    reasonAction a ci = .ok [] ↔ ActionAccepted sys.inetPton6 ⟨ts, as⟩ a := by
  rw [reasonAction_accepts h hw]
  constructor
  · rintro ⟨d', h1, h2, h3⟩
    rcases List.mem_cons.1 h1 with rfl | h1
    · exact (hid h2.symm).elim
    · exact ⟨d', h1, h2, h3⟩
  · rintro ⟨d', h1, h2, h3⟩
    exact ⟨d', List.mem_cons_of_mem _ h1, h2, h3⟩

end

end P4C
