import Verif.Model.ConstraintInfo
import Verif.Proofs.Maps
import Verif.Spec.Verdict

/-
Key and parameter maps built from a P4Info.
-/

namespace P4C

open Spec

/-- The two maps describe the same definitions. -/
structure MapsWF (m : VarMaps) : Prop where
  nodupId : (m.1.map Prod.fst).Nodup
  nodupName : (m.2.map Prod.fst).Nodup
  byId : ∀ id v, (id, v) ∈ m.1 → v.id = id ∧ (v.name, v) ∈ m.2
  byName : ∀ n v, (n, v) ∈ m.2 → v.name = n ∧ (v.id, v) ∈ m.1

theorem mapsWF_nil : MapsWF ([], []) := by constructor <;> simp

theorem insertVar_ok {v : VarInfo} {m m' : VarMaps} :
    insertVar v m = .ok m' ↔
      hasKey v.id m.1 = false ∧ hasKey v.name m.2 = false ∧ m' = ((v.id, v) :: m.1, (v.name, v) :: m.2) := by
  unfold insertVar
  cases h1 : insertNew v.id v m.1 with
  | none =>
    have : hasKey v.id m.1 = true := by
      cases h : hasKey v.id m.1 with
      | true => rfl
      | false => simp [insertNew, h] at h1
    simp [this]
  | some a =>
    obtain ⟨g1, rfl⟩ := insertNew_some.1 h1
    cases h2 : insertNew v.name v m.2 with
    | none =>
      have : hasKey v.name m.2 = true := by
        cases h : hasKey v.name m.2 with
        | true => rfl
        | false => simp [insertNew, h] at h2
      simp [this]
    | some b =>
      obtain ⟨g2, rfl⟩ := insertNew_some.1 h2
      simp only [Res.ok.injEq]
      exact ⟨fun h => ⟨g1, g2, h.symm⟩, fun h => h.2.2.symm⟩

theorem insertVar_total (v : VarInfo) (m : VarMaps) :
    (∃ m', insertVar v m = .ok m') ∨ insertVar v m = .err .invalidArgument := by
  unfold insertVar
  repeat' split
  all_goals simp

theorem nodup_cons_key {κ α : Type} [DecidableEq κ] {k : κ} {a : α} {m : List (κ × α)}
    (hk : hasKey k m = false) (h : (m.map Prod.fst).Nodup) : (((k, a) :: m).map Prod.fst).Nodup := by
  simp only [List.map_cons, List.nodup_cons]
  refine ⟨?_, h⟩
  intro hm
  rw [← hasKey_keys, hk] at hm
  cases hm

theorem insertVar_wf {v : VarInfo} {m m' : VarMaps} (h : insertVar v m = .ok m') (hm : MapsWF m) :
    MapsWF m' := by
  obtain ⟨h1, h2, rfl⟩ := insertVar_ok.1 h
  refine ⟨nodup_cons_key h1 hm.nodupId, nodup_cons_key h2 hm.nodupName, ?_, ?_⟩
  · intro id w hw
    rcases List.mem_cons.1 hw with he | hw
    · cases he; exact ⟨rfl, List.mem_cons_self ..⟩
    · obtain ⟨h3, h4⟩ := hm.byId _ _ hw
      exact ⟨h3, List.mem_cons_of_mem _ h4⟩
  · intro n w hw
    rcases List.mem_cons.1 hw with he | hw
    · cases he; exact ⟨rfl, List.mem_cons_self ..⟩
    · obtain ⟨h3, h4⟩ := hm.byName _ _ hw
      exact ⟨h3, List.mem_cons_of_mem _ h4⟩

/-- Insertion of a list of definitions. -/
def insertVars : VarMaps → List VarInfo → Res VarMaps
  | m, [] => .ok m
  | m, v :: vs => do
    let m ← insertVar v m
    insertVars m vs

theorem insertVars_wf {vs : List VarInfo} {m m' : VarMaps} (h : insertVars m vs = .ok m')
    (hm : MapsWF m) : MapsWF m' := by
  induction vs generalizing m with
  | nil => simp only [insertVars, Res.ok.injEq] at h; subst h; exact hm
  | cons v vs ih =>
    simp only [insertVars, Res.bind_eq_ok] at h
    obtain ⟨m1, h1, h⟩ := h
    exact ih h (insertVar_wf h1 hm)

theorem insertVars_ok {vs : List VarInfo} {m m' : VarMaps} :
    insertVars m vs = .ok m' ↔
      (vs.map VarInfo.id).Nodup ∧ (vs.map VarInfo.name).Nodup ∧
      (∀ v ∈ vs, hasKey v.id m.1 = false ∧ hasKey v.name m.2 = false) ∧
      m' = ((vs.reverse.map fun v => (v.id, v)) ++ m.1, (vs.reverse.map fun v => (v.name, v)) ++ m.2) := by
  induction vs generalizing m with
  | nil =>
    simp only [insertVars, Res.ok.injEq]
    constructor
    · rintro rfl; simp
    · rintro ⟨_, _, _, rfl⟩; simp
  | cons v vs ih =>
    simp only [insertVars, Res.bind_eq_ok]
    constructor
    · rintro ⟨m1, h1, h⟩
      obtain ⟨a1, a2, rfl⟩ := insertVar_ok.1 h1
      obtain ⟨b1, b2, b3, rfl⟩ := ih.1 h
      refine ⟨?_, ?_, ?_, by simp⟩
      · simp only [List.map_cons, List.nodup_cons]
        refine ⟨?_, b1⟩
        intro hm
        obtain ⟨w, hw, he⟩ := List.mem_map.1 hm
        have := (b3 w hw).1
        rw [he] at this
        simp [hasKey, lookup] at this
      · simp only [List.map_cons, List.nodup_cons]
        refine ⟨?_, b2⟩
        intro hm
        obtain ⟨w, hw, he⟩ := List.mem_map.1 hm
        have := (b3 w hw).2
        rw [he] at this
        simp [hasKey, lookup] at this
      · intro w hw
        rcases List.mem_cons.1 hw with rfl | hw
        · exact ⟨a1, a2⟩
        · obtain ⟨c1, c2⟩ := b3 w hw
          simp only [hasKey, lookup] at c1 c2 ⊢
          constructor
          · split at c1
            · simp at c1
            · exact c1
          · split at c2
            · simp at c2
            · exact c2
    · rintro ⟨b1, b2, b3, rfl⟩
      obtain ⟨a1, a2⟩ := b3 v (List.mem_cons_self ..)
      refine ⟨_, insertVar_ok.2 ⟨a1, a2, rfl⟩, ih.2 ?_⟩
      simp only [List.map_cons, List.nodup_cons] at b1 b2
      refine ⟨b1.2, b2.2, ?_, by simp⟩
      intro w hw
      obtain ⟨c1, c2⟩ := b3 w (List.mem_cons_of_mem _ hw)
      have n1 : v.id ≠ w.id := by
        intro he; exact b1.1 (he ▸ List.mem_map.2 ⟨w, hw, rfl⟩)
      have n2 : v.name ≠ w.name := by
        intro he; exact b2.1 (he ▸ List.mem_map.2 ⟨w, hw, rfl⟩)
      simp only [hasKey, lookup, n1, n2, if_false] at c1 c2 ⊢
      exact ⟨c1, c2⟩

theorem insertVars_total (vs : List VarInfo) (m : VarMaps) :
    (∃ m', insertVars m vs = .ok m') ∨ insertVars m vs = .err .invalidArgument := by
  induction vs generalizing m with
  | nil => simp [insertVars]
  | cons v vs ih =>
    simp only [insertVars]
    rcases insertVar_total v m with ⟨m', h⟩ | h
    · rw [h, Res.ok_bind]; exact ih m'
    · rw [h]; simp

/-- The definition made of a match field of the given type. -/
def keyOf (f : MatchField) (t : Ty) : VarInfo := ⟨f.id, f.name, t⟩

theorem parseKeys_ok {fs : List MatchField} {m m' : VarMaps} :
    parseKeys m fs = .ok m' ↔
      ∃ vs : List VarInfo,
        fs.map (fun f => (fun t => (⟨f.id, f.name, t⟩ : VarInfo)) <$> parseKeyType f) = vs.map Res.ok ∧
        insertVars m vs = .ok m' := by
  induction fs generalizing m with
  | nil =>
    simp only [parseKeys, List.map_nil]
    constructor
    · intro h; exact ⟨[], rfl, h⟩
    · rintro ⟨vs, h1, h2⟩
      have : vs = [] := by cases vs <;> simp at h1 ⊢
      subst this
      exact h2
  | cons f fs ih =>
    simp only [parseKeys, Res.bind_eq_ok, List.map_cons]
    constructor
    · rintro ⟨t, ht, m1, h1, h⟩
      obtain ⟨vs, h2, h3⟩ := ih.1 h
      refine ⟨⟨f.id, f.name, t⟩ :: vs, ?_, ?_⟩
      · rw [List.map_cons, ht, h2]; rfl
      · simp only [insertVars, Res.bind_eq_ok]; exact ⟨m1, h1, h3⟩
    · rintro ⟨vs, h2, h3⟩
      cases vs with
      | nil => simp at h2
      | cons v vs =>
        rw [List.map_cons] at h2
        obtain ⟨h1, h2'⟩ := List.cons.inj h2
        clear h2
        rw [Res.map_eq_ok] at h1
        obtain ⟨t, ht, rfl⟩ := h1
        simp only [insertVars, Res.bind_eq_ok] at h3
        obtain ⟨m1, h4, h5⟩ := h3
        exact ⟨t, ht, m1, h4, ih.2 ⟨vs, h2', h5⟩⟩

/-- The definition made of a parameter. -/
def paramOf (p : ParamDecl) : VarInfo :=
  ⟨p.id, p.name, if p.typeName ≠ [] then .unsupported p.typeName else .fixedUnsigned p.bitwidth⟩

theorem parseParamDecls_eq {ps : List ParamDecl} {m : VarMaps} :
    parseParamDecls m ps = insertVars m (ps.map paramOf) := by
  induction ps generalizing m with
  | nil => rfl
  | cons p ps ih =>
    simp only [parseParamDecls, List.map_cons, insertVars]
    have : parseParamType p = .ok (paramOf p).ty := by
      unfold parseParamType paramOf; split <;> rfl
    rw [this, Res.ok_bind]
    show (insertVar (paramOf p) m >>= _) = _
    congr
    funext m
    exact ih

theorem parseTableInfo_wf {sys : Sys} {d : TableDecl} {ti : TableInfo}
    (h : parseTableInfo sys d = .ok ti) : TableWF ti := by
  unfold parseTableInfo at h
  simp only [Res.bind_eq_ok] at h
  obtain ⟨⟨a, b⟩, h1, ⟨c, s⟩, h2, h⟩ := h
  cases h
  obtain ⟨vs, _, h3⟩ := parseKeys_ok.1 h1
  have := insertVars_wf h3 mapsWF_nil
  exact ⟨this.nodupId, this.nodupName, this.byId, this.byName⟩

theorem parseActionInfo_wf {sys : Sys} {d : ActionDecl} {ai : ActionInfo}
    (h : parseActionInfo sys d = .ok ai) : ActionWF ai := by
  unfold parseActionInfo at h
  simp only [Res.bind_eq_ok] at h
  obtain ⟨⟨a, b⟩, h1, ⟨c, s⟩, h2, h⟩ := h
  cases h
  rw [parseParamDecls_eq] at h1
  have := insertVars_wf h1 mapsWF_nil
  exact ⟨this.nodupId, this.nodupName, this.byId, this.byName⟩

theorem parseActionInfo_bits {sys : Sys} {d : ActionDecl} {ai : ActionInfo}
    (h : parseActionInfo sys d = .ok ai) :
    ∀ n pi, (n, pi) ∈ ai.paramsByName → Supported pi.ty → ∃ w, pi.ty = .fixedUnsigned w := by
  unfold parseActionInfo at h
  simp only [Res.bind_eq_ok] at h
  obtain ⟨⟨a, b⟩, h1, ⟨c, s⟩, h2, h⟩ := h
  cases h
  rw [parseParamDecls_eq] at h1
  obtain ⟨_, _, _, he⟩ := insertVars_ok.1 h1
  cases he
  intro n pi hm hs
  simp only [List.append_nil, List.mem_map, List.mem_reverse, Prod.mk.injEq] at hm
  obtain ⟨v, ⟨p, hp, rfl⟩, _, rfl⟩ := hm
  unfold paramOf at hs ⊢
  dsimp only at hs ⊢
  split
  · rename_i hne
    rw [if_pos hne] at hs
    exact absurd rfl (hs.2 _)
  · exact ⟨_, rfl⟩

/-! ### The loops over tables and actions -/

/-- The definition of a declaration, by id. -/
theorem collect_ok {δ ι : Type} {parse : δ → Res ι} {id : δ → Nat} {ds : List δ}
    {m m' : List (Nat × ι)} {b : Bool} :
    collect parse id (m, b) ds = .ok (m', false) ↔
      b = false ∧ ∃ is : List ι, ds.map parse = is.map Res.ok ∧ (ds.map id).Nodup ∧
        (∀ d ∈ ds, hasKey (id d) m = false) ∧ m' = ((ds.map id).zip is).reverse ++ m := by
  induction ds generalizing m b with
  | nil =>
    simp only [collect, Res.ok.injEq, Prod.mk.injEq, List.map_nil]
    constructor
    · rintro ⟨rfl, rfl⟩; exact ⟨rfl, [], by simp⟩
    · rintro ⟨rfl, is, _, _, _, rfl⟩; simp
  | cons d ds ih =>
    simp only [collect, List.map_cons]
    cases hp : parse d with
    | crash => simp; intro _ is h; cases is <;> simp at h
    | oof => simp; intro _ is h; cases is <;> simp at h
    | err x =>
      dsimp only
      rw [ih]
      simp
      intro _ is h; cases is <;> simp at h
    | ok i =>
      dsimp only
      cases hi : insertNew (id d) i m with
      | none =>
        dsimp only
        rw [ih]
        simp only [Bool.true_eq_false, false_and, false_iff, not_and, not_exists, List.mem_cons,
          forall_eq_or_imp]
        intro _ is _ _ hk _
        unfold insertNew at hi
        rw [hk.1] at hi
        simp at hi
      | some m1 =>
        obtain ⟨hk, rfl⟩ := insertNew_some.1 hi
        dsimp only
        rw [ih]
        constructor
        · rintro ⟨rfl, is, h1, h2, h3, rfl⟩
          refine ⟨rfl, i :: is, by simp [h1], ?_, ?_, by simp⟩
          · simp only [List.nodup_cons]
            refine ⟨?_, h2⟩
            intro hm
            obtain ⟨d', hd', he⟩ := List.mem_map.1 hm
            have := h3 d' hd'
            rw [he] at this
            simp [hasKey, lookup] at this
          · intro d' hd'
            rcases List.mem_cons.1 hd' with rfl | hd'
            · exact hk
            · have := h3 d' hd'
              simp only [hasKey, lookup] at this ⊢
              split at this
              · simp at this
              · exact this
        · rintro ⟨rfl, is, h1, h2, h3, rfl⟩
          cases is with
          | nil => simp at h1
          | cons i' is =>
            simp only [List.map_cons, List.cons.injEq, Res.ok.injEq] at h1
            obtain ⟨rfl, h1⟩ := h1
            simp only [List.nodup_cons] at h2
            refine ⟨rfl, is, h1, h2.2, ?_, by simp⟩
            intro d' hd'
            have hne : id d ≠ id d' := by
              intro he; exact h2.1 (he ▸ List.mem_map.2 ⟨d', hd', rfl⟩)
            have := h3 d' (List.mem_cons_of_mem _ hd')
            simp only [hasKey, lookup, hne, if_false] at this ⊢
            exact this

theorem collect_mem {δ ι : Type} {parse : δ → Res ι} {id : δ → Nat} {ds : List δ} {is : List ι}
    (h : ds.map parse = is.map Res.ok) {n : Nat} {i : ι} :
    (n, i) ∈ (ds.map id).zip is ↔ ∃ d ∈ ds, id d = n ∧ parse d = .ok i := by
  induction ds generalizing is with
  | nil => simp
  | cons d ds ih =>
    cases is with
    | nil => simp at h
    | cons j is =>
      simp only [List.map_cons, List.cons.injEq] at h
      simp only [List.map_cons, List.zip_cons_cons, List.mem_cons, ih h.2, Prod.mk.injEq]
      constructor
      · rintro (⟨rfl, rfl⟩ | ⟨d', h1, h2⟩)
        · exact ⟨d, .inl rfl, rfl, h.1⟩
        · exact ⟨d', .inr h1, h2⟩
      · rintro ⟨d', rfl | h1, h2, h3⟩
        · left
          rw [h.1] at h3
          cases h3
          exact ⟨h2.symm, rfl⟩
        · exact .inr ⟨d', h1, h2, h3⟩

theorem collect_keys {δ ι : Type} {parse : δ → Res ι} {id : δ → Nat} {ds : List δ} {is : List ι}
    (h : ds.map parse = is.map Res.ok) : ((ds.map id).zip is).map Prod.fst = ds.map id := by
  have hl : ds.length = is.length := by simpa using congrArg List.length h
  rw [List.map_fst_zip]
  simp [hl]

/-- What `P4ToConstraintInfo` returns. -/
theorem p4ToConstraintInfo_ok {sys : Sys} {p : P4Info} {ci : ConstraintInfo} :
    p4ToConstraintInfo sys p = .ok ci ↔
      ∃ ts as, p.tables.map (parseTableInfo sys) = ts.map Res.ok ∧
        p.actions.map (parseActionInfo sys) = as.map Res.ok ∧
        (p.tables.map fun t => t.preamble.id).Nodup ∧ (p.actions.map fun a => a.preamble.id).Nodup ∧
        ci = ⟨((p.actions.map fun a => a.preamble.id).zip as).reverse,
              ((p.tables.map fun t => t.preamble.id).zip ts).reverse⟩ := by
  unfold p4ToConstraintInfo
  simp only [Res.bind_eq_ok]
  constructor
  · rintro ⟨⟨ts, f1⟩, h1, ⟨as, f2⟩, h2, h⟩
    cases f1
    · cases f2
      · obtain ⟨_, is, a1, a2, _, rfl⟩ := collect_ok.1 h1
        obtain ⟨_, js, b1, b2, _, rfl⟩ := collect_ok.1 h2
        simp at h
        subst h
        exact ⟨is, js, a1, b1, a2, b2, rfl⟩
      · simp at h
    · simp at h
  · rintro ⟨ts, as, a1, b1, a2, b2, rfl⟩
    refine ⟨(_, false), collect_ok.2 ⟨rfl, ts, a1, a2, by simp [hasKey, lookup], rfl⟩, (_, false),
      collect_ok.2 ⟨rfl, as, b1, b2, by simp [hasKey, lookup], rfl⟩, by simp⟩

theorem table_of_info {sys : Sys} {p : P4Info} {ci : ConstraintInfo} (h : p4ToConstraintInfo sys p = .ok ci)
    {id : Nat} {ti : TableInfo} :
    lookup id ci.tables = some ti ↔
      ∃ d ∈ p.tables, d.preamble.id = id ∧ parseTableInfo sys d = .ok ti := by
  obtain ⟨ts, as, a1, b1, a2, b2, rfl⟩ := p4ToConstraintInfo_ok.1 h
  have hn : ((((p.tables.map fun t => t.preamble.id).zip ts).reverse).map Prod.fst).Nodup := by
    rw [List.map_reverse, collect_keys a1]
    exact (List.reverse_perm _).nodup_iff.2 a2
  rw [lookup_iff_mem hn, List.mem_reverse, collect_mem a1]

theorem action_of_info {sys : Sys} {p : P4Info} {ci : ConstraintInfo}
    (h : p4ToConstraintInfo sys p = .ok ci) {id : Nat} {ai : ActionInfo} :
    lookup id ci.actions = some ai ↔
      ∃ d ∈ p.actions, d.preamble.id = id ∧ parseActionInfo sys d = .ok ai := by
  obtain ⟨ts, as, a1, b1, a2, b2, rfl⟩ := p4ToConstraintInfo_ok.1 h
  have hn : ((((p.actions.map fun t => t.preamble.id).zip as).reverse).map Prod.fst).Nodup := by
    rw [List.map_reverse, collect_keys b1]
    exact (List.reverse_perm _).nodup_iff.2 b2
  rw [lookup_iff_mem hn, List.mem_reverse, collect_mem b1]

end P4C
