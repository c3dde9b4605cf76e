import Verif.Spec.Order
import Verif.Proofs.Explain4

/-
Reading of entries: the order of maps, the spelling of numbers, omitted keys, defects.
-/

namespace P4C

open Spec

/-! ### Outcomes up to the order of the key map -/

/-- The same outcome, with related values. -/
def ResRel {α : Type} (R : α → α → Prop) : Res α → Res α → Prop
  | .ok a, .ok b => R a b
  | .err c, .err d => c = d
  | .crash, .crash => True
  | .oof, .oof => True
  | _, _ => False

theorem ResRel.bind {α β : Type} {R : α → α → Prop} {S : β → β → Prop} {x y : Res α} {f g : α → Res β}
    (h : ResRel R x y) (hf : ∀ a b, x = .ok a → y = .ok b → R a b → ResRel S (f a) (g b)) :
    ResRel S (x >>= f) (y >>= g) := by
  cases x <;> cases y <;> simp only [ResRel] at h
  · exact hf _ _ rfl rfl h
  · subst h
    exact rfl
  · trivial
  · trivial

theorem ResRel.refl {α : Type} {R : α → α → Prop} (hR : ∀ a, R a a) (x : Res α) : ResRel R x x := by
  cases x with
  | ok a => exact hR a
  | err c => exact rfl
  | crash => trivial
  | oof => trivial

/-- The same map. -/
def SameMap {α : Type} (a b : List (Str × α)) : Prop :=
  (a.map Prod.fst).Nodup ∧ (b.map Prod.fst).Nodup ∧ ∀ n, lookup n a = lookup n b

/-- The same context. -/
def SameCtx (a b : EvalCtx) : Prop :=
  a.src = b.src ∧
  ((∃ t p k k', a.vals = .table ⟨t, p, k⟩ ∧ b.vals = .table ⟨t, p, k'⟩ ∧ SameMap k k') ∨
   (∃ i t k k', a.vals = .action ⟨i, t, k⟩ ∧ b.vals = .action ⟨i, t, k'⟩ ∧ SameMap k k'))

theorem checkConstraint_same {c : Expr} {x y : Res EvalCtx} (h : ResRel SameCtx x y) :
    checkConstraint c x = checkConstraint c y := by
  cases x <;> cases y <;> simp only [ResRel] at h
  · obtain ⟨hsrc, ⟨t, p, k, k', hv, hv', h1, h2, h3⟩ | ⟨i, t, k, k', hv, hv', h1, h2, h3⟩⟩ := h
    · refine checkConstraint_congr hsrc (by rw [hv, hv']; exact ⟨rfl, fun n _ => h3 n⟩) fun v text rel _ => ?_
      rw [hv, hv']
      unfold violationText
      dsimp only
      congr 1
      exact listing_congr rel h1 h2 _ fun k _ => h3 k
    · refine checkConstraint_congr hsrc (by rw [hv, hv']; exact fun n _ => h3 n) fun v text rel _ => ?_
      rw [hv, hv']
      unfold violationText
      dsimp only
      congr 1
      exact listing_congr rel h1 h2 _ fun k _ => h3 k
  · rw [h]
  · rfl
  · rfl

theorem sameMap_cons {α : Type} {a b : List (Str × α)} (h : SameMap a b) {n : Str} {v : α}
    (hn : hasKey n a = false) : SameMap ((n, v) :: a) ((n, v) :: b) := by
  have hb : hasKey n b = false := by unfold hasKey at hn ⊢; rw [← h.2.2]; exact hn
  refine ⟨nodup_cons_key hn h.1, nodup_cons_key hb h.2.1, fun k => ?_⟩
  unfold lookup
  split
  · rfl
  · exact h.2.2 k

theorem sameMap_hasKey {α : Type} {a b : List (Str × α)} (h : SameMap a b) (n : Str) : hasKey n a = hasKey n b := by
  unfold hasKey
  rw [h.2.2]

theorem addDefaults_same : ∀ (ks : List (Str × VarInfo)) {a b : List (Str × Value)}, SameMap a b →
    ResRel SameMap (addDefaults a ks) (addDefaults b ks) := by
  intro ks
  induction ks with
  | nil => exact fun h => h
  | cons k ks ih =>
    intro a b h
    obtain ⟨n, ki⟩ := k
    unfold addDefaults
    rw [← sameMap_hasKey h n]
    split
    · exact ih h
    · rename_i hn
      refine ResRel.bind (R := Eq) (ResRel.refl (fun _ => rfl) _) ?_
      rintro v _ _ _ rfl
      exact ih (sameMap_cons h (by simpa using hn))

theorem parseMatches_nodup {ti : TableInfo} : ∀ (ms : List FieldMatch) {a keys : List (Str × Value)},
    (a.map Prod.fst).Nodup → parseMatches ti a ms = .ok keys → (keys.map Prod.fst).Nodup := by
  intro ms
  induction ms with
  | nil =>
    intro a keys ha h
    cases h
    exact ha
  | cons m ms ih =>
    intro a keys ha h
    unfold parseMatches at h
    obtain ⟨⟨n, v⟩, _, h⟩ := Res.bind_eq_ok.1 h
    dsimp only at h
    split at h
    · cases h
    · rename_i k hk
      obtain ⟨h1, rfl⟩ := insertNew_some.1 hk
      exact ih (nodup_cons_key h1 ha) h

/-! ### The order of maps -/

theorem addDefaults_perm {ks ks' : List (Str × VarInfo)} (hp : ks.Perm ks') (hn : (ks.map Prod.fst).Nodup)
    {a b : List (Str × Value)} (ha : (a.map Prod.fst).Nodup) (h : addDefaults a ks = .ok b) :
    ∃ b', addDefaults a ks' = .ok b' ∧ SameMap b b' := by
  have hn' : (ks'.map Prod.fst).Nodup := (hp.map _).nodup_iff.1 hn
  obtain ⟨ds, h1, rfl⟩ := (addDefaults_ok hn).1 h
  have hq := (hp.filter fun k => !hasKey k.1 a).map
    fun k : Str × VarInfo => (fun v => (k.1, v)) <$> defaultValue k.2
  rw [h1] at hq
  have h2 : ∃ ds' : List (Str × Value), ((ks'.filter fun k => !hasKey k.1 a).map
      fun k : Str × VarInfo => (fun v => (k.1, v)) <$> defaultValue k.2) = ds'.map Res.ok :=
    map_ok_exists fun x hx => by
      have := hq.mem_iff.2 (List.mem_map.2 ⟨x, hx, rfl⟩)
      obtain ⟨d, _, hd⟩ := List.mem_map.1 this
      exact ⟨d, hd.symm⟩
  obtain ⟨ds', h2⟩ := h2
  refine ⟨ds'.reverse ++ a, (addDefaults_ok hn').2 ⟨ds', h2, rfl⟩, ?_⟩
  rw [h2] at hq
  have hds : ds.Perm ds' := by
    have := hq.map (fun r : Res (Str × Value) => match r with | .ok x => x | _ => ([], .bool true))
    simpa [List.map_map, Function.comp_def] using this
  -- the keys of the defaults are those of the filtered list
  have hkeys : ds.map Prod.fst = (ks.filter fun k => !hasKey k.1 a).map Prod.fst := by
    have := congrArg (List.map fun r : Res (Str × Value) => match r with | .ok x => some x.1 | _ => none) h1
    have e1 : ∀ (l : List (Str × VarInfo)) (l' : List (Str × Value)),
        (l.map fun k : Str × VarInfo => (fun v => (k.1, v)) <$> defaultValue k.2) = l'.map Res.ok →
        l'.map Prod.fst = l.map Prod.fst := by
      intro l
      induction l with
      | nil =>
        intro l' h
        cases l' with
        | nil => rfl
        | cons x xs => cases h
      | cons x xs ih =>
        intro l' h
        cases l' with
        | nil => cases h
        | cons y ys =>
          rw [List.map_cons, List.map_cons] at h
          injection h with h1 h2
          obtain ⟨v, _, hv⟩ := Res.map_eq_ok.1 h1
          rw [List.map_cons, List.map_cons, ih ys h2, ← hv]
    exact e1 _ _ h1
  have hnd : ((ds.reverse ++ a).map Prod.fst).Nodup := by
    rw [List.map_append, List.nodup_append]
    refine ⟨?_, ha, ?_⟩
    · rw [List.map_reverse, (List.reverse_perm _).nodup_iff, hkeys]
      exact (List.Sublist.map _ List.filter_sublist).nodup hn
    · intro x hx y hy
      rw [List.map_reverse, List.mem_reverse, hkeys] at hx
      obtain ⟨k, hk, rfl⟩ := List.mem_map.1 hx
      have := (List.mem_filter.1 hk).2
      intro he
      have h3 : hasKey k.1 a = true := hasKey_keys.2 (he ▸ hy)
      rw [h3] at this
      cases this
  have hperm : (ds.reverse ++ a).Perm (ds'.reverse ++ a) :=
    ((List.reverse_perm ds).trans (hds.trans (List.reverse_perm ds').symm)).append_right a
  exact ⟨hnd, (hperm.map _).nodup_iff.1 hnd, fun n => lookup_perm hperm hnd n⟩

theorem parseKey_perm {ti ti' : TableInfo} (h : TablePerm ti ti') (hwf : TableWF ti) (m : FieldMatch) :
    parseKey m ti = parseKey m ti' := by
  unfold parseKey
  rw [lookup_perm h.keysById hwf.nodupId]

theorem parseMatches_perm {ti ti' : TableInfo} (h : TablePerm ti ti') (hwf : TableWF ti) :
    ∀ (ms : List FieldMatch) (a : List (Str × Value)), parseMatches ti a ms = parseMatches ti' a ms := by
  intro ms
  induction ms with
  | nil => exact fun _ => rfl
  | cons m ms ih =>
    intro a
    unfold parseMatches
    rw [parseKey_perm h hwf m]
    congr 1
    funext x
    obtain ⟨n, v⟩ := x
    dsimp only
    cases insertNew n v a with
    | none => rfl
    | some k => exact ih k

theorem parseTableEntry_perm {ti ti' : TableInfo} (h : TablePerm ti ti') (hwf : TableWF ti) {entry : RtEntry}
    {ctx : EvalCtx} (hc : parseTableEntry entry ti = .ok ctx) :
    ∃ ctx', parseTableEntry entry ti' = .ok ctx' ∧ SameCtx ctx ctx' := by
  unfold parseTableEntry at hc ⊢
  obtain ⟨k1, hk1, hc⟩ := Res.bind_eq_ok.1 hc
  obtain ⟨k2, hk2, hc⟩ := Res.bind_eq_ok.1 hc
  obtain ⟨k3, hk3, hs⟩ := addDefaults_perm h.keysByName hwf.nodupName
    (parseMatches_nodup _ (by simp) hk1) hk2
  cases hc
  rw [← parseMatches_perm h hwf, hk1, Res.ok_bind, hk3, Res.ok_bind]
  exact ⟨_, rfl, h.source, .inl ⟨ti.name, entry.priority, k2, k3, rfl, by rw [h.name], hs⟩⟩

theorem tablePerm_symm {a b : TableInfo} (h : TablePerm a b) : TablePerm b a :=
  ⟨h.id.symm, h.name.symm, h.constraint.symm, h.source.symm, h.keysById.symm, h.keysByName.symm⟩

theorem tablePerm_wf {a b : TableInfo} (h : TablePerm a b) (hw : TableWF a) : TableWF b := by
  refine ⟨(h.keysById.map _).nodup_iff.1 hw.nodupId, (h.keysByName.map _).nodup_iff.1 hw.nodupName, ?_, ?_⟩
  · intro id ki hk
    have := hw.byId id ki (h.keysById.mem_iff.2 hk)
    exact ⟨this.1, h.keysByName.mem_iff.1 this.2⟩
  · intro id ki hk
    have := hw.byName id ki (h.keysByName.mem_iff.2 hk)
    exact ⟨this.1, h.keysById.mem_iff.1 this.2⟩

theorem actionPerm_symm {a b : ActionInfo} (h : ActionPerm a b) : ActionPerm b a :=
  ⟨h.id.symm, h.name.symm, h.constraint.symm, h.source.symm, h.paramsById.symm, h.paramsByName.symm⟩

theorem parseAction_perm {ai ai' : ActionInfo} (h : ActionPerm ai ai') (hwf : ActionWF ai) (a : RtAction) :
    parseAction a ai = parseAction a ai' := by
  have h1 : ∀ (ps : List (Nat × Bytes)) (acc : List (Str × Int)), parseParams ai acc ps = parseParams ai' acc ps := by
    intro ps
    induction ps with
    | nil => exact fun _ => rfl
    | cons p ps ih =>
      intro acc
      obtain ⟨id, v⟩ := p
      unfold parseParams
      rw [lookup_perm h.paramsById hwf.nodupId]
      cases lookup id ai'.paramsById with
      | none => rfl
      | some pi =>
        dsimp only
        split
        · rfl
        · exact ih _
  unfold parseAction
  rw [h1, h.name, h.source]

theorem each_lookup {α : Type} {R : α → α → Prop} {xs ys : List (Nat × α)}
    (h : Each (fun x y => x.1 = y.1 ∧ R x.2 y.2) xs ys) (n : Nat) :
    (lookup n xs = none ∧ lookup n ys = none) ∨
    ∃ a b, lookup n xs = some a ∧ lookup n ys = some b ∧ R a b := by
  induction h with
  | nil => exact .inl ⟨rfl, rfl⟩
  | cons h _ ih =>
    rename_i x y xs ys _
    obtain ⟨i, a⟩ := x
    obtain ⟨j, b⟩ := y
    obtain ⟨rfl, h⟩ := h
    unfold lookup
    by_cases hi : i = n
    · right
      exact ⟨a, b, by rw [if_pos hi], by rw [if_pos hi], h⟩
    · rw [if_neg hi, if_neg hi]
      exact ih

theorem infoPerm_table {a b : ConstraintInfo} (h : InfoPerm a b) (hw : InfoWF a) (n : Nat) :
    (lookup n a.tables = none ∧ lookup n b.tables = none) ∨
    ∃ x y, lookup n a.tables = some x ∧ lookup n b.tables = some y ∧ TablePerm x y ∧ TableWF x := by
  obtain ⟨ts, h1, h2⟩ := h.tables
  rw [lookup_perm h1 hw.nodupTables]
  rcases each_lookup h2 n with h3 | ⟨x, y, h3, h4, h5⟩
  · exact .inl h3
  · exact .inr ⟨x, y, h3, h4, h5, hw.tables n x (h1.mem_iff.2 (lookup_some_mem h3))⟩

theorem infoPerm_action {a b : ConstraintInfo} (h : InfoPerm a b) (hw : InfoWF a) (n : Nat) :
    (lookup n a.actions = none ∧ lookup n b.actions = none) ∨
    ∃ x y, lookup n a.actions = some x ∧ lookup n b.actions = some y ∧ ActionPerm x y ∧ ActionWF x := by
  obtain ⟨ts, h1, h2⟩ := h.actions
  rw [lookup_perm h1 hw.nodupActions]
  rcases each_lookup h2 n with h3 | ⟨x, y, h3, h4, h5⟩
  · exact .inl h3
  · exact .inr ⟨x, y, h3, h4, h5, hw.actions n x (h1.mem_iff.2 (lookup_some_mem h3))⟩

theorem reasonAction_perm {a b : ConstraintInfo} (h : InfoPerm a b) (hw : InfoWF a) (x : RtAction) :
    reasonAction x a = reasonAction x b := by
  unfold reasonAction getActionInfo
  rcases infoPerm_action h hw x.actionId with ⟨h1, h2⟩ | ⟨ai, bi, h1, h2, h3, h4⟩
  · rw [h1, h2]
  · rw [h1, h2]
    dsimp only
    rw [h3.constraint]
    cases bi.constraint with
    | none => rfl
    | some c => dsimp only; rw [parseAction_perm h3 h4]

theorem reasonTableAction_perm {a b : ConstraintInfo} (h : InfoPerm a b) (hw : InfoWF a) (x : Option TableAction) :
    reasonTableAction a x = reasonTableAction b x := by
  have hset : ∀ as, reasonActionSet a as = reasonActionSet b as := by
    intro as
    induction as with
    | nil => rfl
    | cons x as ih =>
      unfold reasonActionSet
      rw [reasonAction_perm h hw, ih]
  cases x with
  | none => rfl
  | some t => cases t <;> first | rfl | exact reasonAction_perm h hw _ | exact hset _

theorem checkConstraint_ok {c : Expr} {x y : Res EvalCtx}
    (h : ∀ ctx, x = .ok ctx → ∃ ctx', y = .ok ctx' ∧ SameCtx ctx ctx') {m : Str} (hm : checkConstraint c x = .ok m) :
    checkConstraint c y = .ok m := by
  have hx : ∃ ctx, x = .ok ctx := by
    unfold checkConstraint at hm
    split at hm
    · cases hm
    · cases x with
      | ok ctx => exact ⟨ctx, rfl⟩
      | _ => cases hm
  obtain ⟨ctx, rfl⟩ := hx
  obtain ⟨ctx', rfl, h2⟩ := h ctx rfl
  rw [← checkConstraint_same (x := .ok ctx) (y := .ok ctx') h2]
  exact hm

theorem infoPerm_wf {a b : ConstraintInfo} (h : InfoPerm a b) (hw : InfoWF a) : InfoWF b := by
  have hkeys : ∀ {α : Type} {R : α → α → Prop} {xs ys : List (Nat × α)},
      Each (fun x y => x.1 = y.1 ∧ R x.2 y.2) xs ys → xs.map Prod.fst = ys.map Prod.fst := by
    intro α R xs ys h
    induction h with
    | nil => rfl
    | cons h _ ih => rw [List.map_cons, List.map_cons, ih, h.1]
  obtain ⟨ts, h1, h2⟩ := h.tables
  obtain ⟨as, h3, h4⟩ := h.actions
  have n1 : (b.tables.map Prod.fst).Nodup := hkeys h2 ▸ (h1.map _).nodup_iff.1 hw.nodupTables
  have n2 : (b.actions.map Prod.fst).Nodup := hkeys h4 ▸ (h3.map _).nodup_iff.1 hw.nodupActions
  refine ⟨n1, n2, fun id ti hti => ?_, fun id ai hai => ?_⟩
  · rcases infoPerm_table h hw id with ⟨_, h6⟩ | ⟨x, y, h5, h6, h7, h8⟩
    · exact (lookup_none_iff.1 h6 _ hti).elim
    · rw [(lookup_iff_mem n1).2 hti] at h6
      cases h6
      exact tablePerm_wf h7 h8
  · rcases infoPerm_action h hw id with ⟨_, h6⟩ | ⟨x, y, h5, h6, h7, h8⟩
    · exact (lookup_none_iff.1 h6 _ hai).elim
    · rw [(lookup_iff_mem n2).2 hai] at h6
      cases h6
      refine ⟨(h7.paramsById.map _).nodup_iff.1 h8.nodupId, (h7.paramsByName.map _).nodup_iff.1 h8.nodupName, ?_, ?_⟩
      · intro id ki hk
        have := h8.byId id ki (h7.paramsById.mem_iff.2 hk)
        exact ⟨this.1, h7.paramsByName.mem_iff.1 this.2⟩
      · intro id ki hk
        have := h8.byName id ki (h7.paramsByName.mem_iff.2 hk)
        exact ⟨this.1, h7.paramsById.mem_iff.1 this.2⟩

theorem infoPerm_symm {a b : ConstraintInfo} (h : InfoPerm a b) : InfoPerm b a := by
  have key : ∀ {α : Type} {R : α → α → Prop} (hR : ∀ x y, R x y → R y x) {xs ts ys : List α},
      xs.Perm ts → Each R ts ys → ∃ us, ys.Perm us ∧ Each R us xs := by
    intro α R hR xs ts ys hp
    induction hp generalizing ys with
    | nil => intro h; cases h; exact ⟨[], .refl _, .nil⟩
    | cons x _ ih =>
      intro h
      cases h with
      | cons h1 h2 =>
        obtain ⟨us, h3, h4⟩ := ih h2
        exact ⟨_, h3.cons _, .cons (hR _ _ h1) h4⟩
    | swap x y l =>
      intro h
      cases h with
      | cons h1 h2 =>
        cases h2 with
        | cons h3 h4 =>
          have : ∀ {l bs : List α}, Each R l bs → Each R bs l := by
            intro l bs h
            induction h with
            | nil => exact .nil
            | cons h _ ih => exact .cons (hR _ _ h) ih
          exact ⟨_, .swap _ _ _, .cons (hR _ _ h3) (.cons (hR _ _ h1) (this h4))⟩
    | trans _ _ ih1 ih2 =>
      intro h
      obtain ⟨us, h1, h2⟩ := ih2 h
      have : ∀ {l bs : List α}, Each R l bs → Each R bs l := by
        intro l bs h
        induction h with
        | nil => exact .nil
        | cons h _ ih => exact .cons (hR _ _ h) ih
      obtain ⟨vs, h3, h4⟩ := ih1 (this h2)
      exact ⟨vs, h1.trans h3, h4⟩
  refine ⟨?_, ?_⟩
  · obtain ⟨ts, h1, h2⟩ := h.tables
    exact key (fun x y hxy => ⟨hxy.1.symm, tablePerm_symm hxy.2⟩) h1 h2
  · obtain ⟨ts, h1, h2⟩ := h.actions
    exact key (fun x y hxy => ⟨hxy.1.symm, actionPerm_symm hxy.2⟩) h1 h2

theorem tableReason_perm {ti ti' : TableInfo} (h : TablePerm ti ti') (hwf : TableWF ti) {entry : RtEntry} {m : Str}
    (hm : tableReason entry ti = .ok m) : tableReason entry ti' = .ok m := by
  unfold tableReason at hm ⊢
  rw [← h.constraint]
  cases hc : ti.constraint with
  | none => rw [hc] at hm; exact hm
  | some c =>
    rw [hc] at hm
    exact checkConstraint_ok (fun ctx hx => parseTableEntry_perm h hwf hx) hm

/-! ### Which errors the reading of entries gives -/

theorem defaultValue_kind {ki : VarInfo} (h : MatchKind ki.ty) :
    (∃ v, defaultValue ki = .ok v) ∨ defaultValue ki = .err .invalidArgument := by
  unfold defaultValue
  generalize ki.ty = t at h
  cases h with
  | exact w => exact .inr rfl
  | ternary w => exact .inl ⟨_, rfl⟩
  | optional w => exact .inl ⟨_, rfl⟩
  | lpm w => exact .inl ⟨_, rfl⟩
  | range w =>
    left
    dsimp only
    rw [maxValue_ok.2 ⟨Int.natCast_nonneg _, rfl⟩]
    exact ⟨_, rfl⟩

theorem addDefaults_kind : ∀ (ks : List (Str × VarInfo)) (a : List (Str × Value)),
    (∀ n ki, (n, ki) ∈ ks → MatchKind ki.ty) →
    (∃ b, addDefaults a ks = .ok b) ∨ addDefaults a ks = .err .invalidArgument := by
  intro ks
  induction ks with
  | nil => exact fun a _ => .inl ⟨a, rfl⟩
  | cons k ks ih =>
    intro a h
    obtain ⟨n, ki⟩ := k
    unfold addDefaults
    split
    · exact ih a fun n ki hk => h n ki (List.mem_cons_of_mem _ hk)
    · rcases defaultValue_kind (h n ki List.mem_cons_self) with ⟨v, hv⟩ | hv
      · rw [hv, Res.ok_bind]
        exact ih _ fun n ki hk => h n ki (List.mem_cons_of_mem _ hk)
      · rw [hv]
        exact .inr rfl

theorem parseTableEntry_perm_eq {ti ti' : TableInfo} (h : TablePerm ti ti') (hwf : TableWF ti)
    (hk : ∀ n ki, (n, ki) ∈ ti.keysByName → MatchKind ki.ty) (entry : RtEntry) :
    ResRel SameCtx (parseTableEntry entry ti) (parseTableEntry entry ti') := by
  cases hc : parseTableEntry entry ti with
  | ok ctx =>
    obtain ⟨ctx', h1, h2⟩ := parseTableEntry_perm h hwf hc
    rw [h1]
    exact h2
  | err _ | crash | oof =>
    have hne : ∀ ctx', parseTableEntry entry ti' ≠ .ok ctx' := by
      intro ctx' h1
      obtain ⟨ctx, h2, _⟩ := parseTableEntry_perm (tablePerm_symm h) (tablePerm_wf h hwf) h1
      rw [h2] at hc
      cases hc
    unfold parseTableEntry at hc hne ⊢
    rw [← parseMatches_perm h hwf] at hne ⊢
    cases hm : parseMatches ti [] entry.matches_ with
    | ok k =>
      rw [hm, Res.ok_bind] at hc hne
      rw [Res.ok_bind]
      rcases addDefaults_kind ti.keysByName k hk with ⟨b, hb⟩ | hb
      · rw [hb] at hc
        cases hc
      · rw [hb] at hc
        rcases addDefaults_kind ti'.keysByName k
          (fun n ki h1 => hk n ki (h.keysByName.mem_iff.2 h1)) with ⟨b, hb'⟩ | hb'
        · rw [hb'] at hne
          exact (hne _ rfl).elim
        · rw [hb']
          cases hc <;> exact rfl
    | err _ | crash | oof =>
      rw [hm] at hc
      cases hc <;> first | exact rfl | trivial

/-! ### The spelling of numbers -/

theorem parseKey_same {ti : TableInfo} {m m' : FieldMatch} (h : m.fieldId = m'.fieldId) (hs : SameMatch m.val m'.val) :
    parseKey m ti = parseKey m' ti := by
  unfold parseKey
  rw [h]
  cases lookup m'.fieldId ti.keysById with
  | none => rfl
  | some ki =>
    dsimp only
    generalize m.val = v at hs
    generalize m'.val = v' at hs
    simp only [parseP4RTInteger_eq]
    cases hs with
    | notSet => rfl
    | other => rfl
    | exact h => unfold SameNumber at h; dsimp only; rw [h]
    | ternary h h' => unfold SameNumber at h h'; dsimp only; rw [h, h']
    | lpm p h => unfold SameNumber at h; dsimp only; rw [h]
    | range h h' => unfold SameNumber at h h'; dsimp only; rw [h, h']
    | optional h => unfold SameNumber at h; dsimp only; rw [h]

theorem parseMatches_spelling {ti : TableInfo} {ms ms' : List FieldMatch}
    (h : Each (fun x y => x.fieldId = y.fieldId ∧ SameMatch x.val y.val) ms ms') :
    ∀ a, parseMatches ti a ms = parseMatches ti a ms' := by
  induction h with
  | nil => exact fun _ => rfl
  | cons h _ ih =>
    intro a
    unfold parseMatches
    rw [parseKey_same h.1 h.2]
    congr 1
    funext x
    obtain ⟨n, v⟩ := x
    dsimp only
    cases insertNew n v a with
    | none => rfl
    | some k => exact ih k

theorem reasonAction_spelling {a b : RtAction} (h : SameAction a b) (ci : ConstraintInfo) :
    reasonAction a ci = reasonAction b ci := by
  unfold reasonAction
  rw [h.id]
  have h1 : ∀ ai : ActionInfo, parseAction a ai = parseAction b ai := by
    intro ai
    have h2 : ∀ {ps qs : List (Nat × Bytes)}, Each (fun x y => x.1 = y.1 ∧ SameNumber x.2 y.2) ps qs →
        ∀ acc, parseParams ai acc ps = parseParams ai acc qs := by
      intro ps qs h
      induction h with
      | nil => exact fun _ => rfl
      | cons h _ ih =>
        intro acc
        rename_i x y ps qs _
        obtain ⟨i, v⟩ := x
        obtain ⟨j, w⟩ := y
        obtain ⟨rfl, h⟩ := h
        unfold parseParams
        cases lookup i ai.paramsById with
        | none => rfl
        | some pi =>
          dsimp only at h ⊢
          unfold SameNumber at h
          rw [parseP4RTInteger_eq, parseP4RTInteger_eq, h]
          split
          · rfl
          · exact ih _
    unfold parseAction
    rw [h2 h.params, h.id]
  cases getActionInfo ci b.actionId with
  | none => rfl
  | some ai => dsimp only; rw [h1]

theorem reasonTableAction_spelling {a b : Option TableAction} (h : SameTableAction a b) (ci : ConstraintInfo) :
    reasonTableAction ci a = reasonTableAction ci b := by
  cases h with
  | none => rfl
  | notSet => rfl
  | member => rfl
  | group => rfl
  | action h => exact reasonAction_spelling h ci
  | set h =>
    show reasonActionSet ci _ = reasonActionSet ci _
    induction h with
    | nil => rfl
    | cons h _ ih =>
      unfold reasonActionSet
      rw [reasonAction_spelling h, ih]

theorem bytesNat_zeros (n : Nat) (bs : Bytes) : bytesNat (List.replicate n 0 ++ bs) = bytesNat bs := by
  induction n with
  | zero => rfl
  | succ n ih =>
    rw [List.replicate_succ, List.cons_append]
    show (0 : UInt8).toNat * _ + _ = _
    rw [ih]
    simp

theorem bytesNat_lt (bs : Bytes) : bytesNat bs < 256 ^ bs.length := by
  induction bs with
  | nil => exact Nat.one_pos
  | cons b bs ih =>
    show b.toNat * 256 ^ bs.length + bytesNat bs < 256 ^ (bs.length + 1)
    have hb : b.toNat < 256 := b.toNat_lt
    have : (b.toNat + 1) * 256 ^ bs.length ≤ 256 * 256 ^ bs.length := Nat.mul_le_mul_right _ hb
    rw [Nat.add_mul, Nat.one_mul] at this
    rw [Nat.pow_succ, Nat.mul_comm]
    rw [Nat.mul_comm (256 ^ bs.length)]
    omega

theorem bytesNat_inj_len : ∀ {a b : Bytes}, a.length = b.length → bytesNat a = bytesNat b → a = b := by
  intro a
  induction a with
  | nil =>
    intro b hl _
    cases b with
    | nil => rfl
    | cons => cases hl
  | cons x xs ih =>
    intro b hl h
    cases b with
    | nil => cases hl
    | cons y ys =>
      have hl' : xs.length = ys.length := by simpa using hl
      have h1 : x.toNat * 256 ^ xs.length + bytesNat xs = y.toNat * 256 ^ ys.length + bytesNat ys := h
      rw [← hl'] at h1
      have l1 := bytesNat_lt xs
      have l2 := bytesNat_lt ys
      rw [← hl'] at l2
      have hp : 0 < 256 ^ xs.length := Nat.pow_pos (by omega)
      have hx : x.toNat = y.toNat := by
        have e1 : (x.toNat * 256 ^ xs.length + bytesNat xs) / 256 ^ xs.length = x.toNat := by
          rw [Nat.mul_comm, Nat.mul_add_div hp, Nat.div_eq_of_lt l1, Nat.add_zero]
        have e2 : (y.toNat * 256 ^ xs.length + bytesNat ys) / 256 ^ xs.length = y.toNat := by
          rw [Nat.mul_comm, Nat.mul_add_div hp, Nat.div_eq_of_lt l2, Nat.add_zero]
        rw [← e1, ← e2, h1]
      rw [hx] at h1
      rw [ih hl' (by omega), UInt8.toNat_inj.1 hx]

theorem bytesNat_ge {b : UInt8} {bs : Bytes} (hb : b ≠ 0) : 256 ^ bs.length ≤ bytesNat (b :: bs) := by
  have : 0 < b.toNat := by
    rcases Nat.eq_zero_or_pos b.toNat with h | h
    · exact (hb (UInt8.toNat_inj.1 h)).elim
    · exact h
  show _ ≤ b.toNat * 256 ^ bs.length + bytesNat bs
  have := Nat.mul_le_mul_right (256 ^ bs.length) this
  omega

/-- Without leading zeros the spelling is unique. -/
theorem bytesNat_inj {a b : Bytes} (ha : a.head? ≠ some 0) (hb : b.head? ≠ some 0) (h : bytesNat a = bytesNat b) :
    a = b := by
  refine bytesNat_inj_len ?_ h
  have key : ∀ {a b : Bytes}, b.head? ≠ some 0 → bytesNat a = bytesNat b → b.length ≤ a.length := by
    intro a b hb h
    cases b with
    | nil => exact Nat.zero_le _
    | cons y ys =>
      have h1 := bytesNat_ge (bs := ys) (b := y) (by simpa using hb)
      have h2 := bytesNat_lt a
      rw [h] at h2
      have h3 : 256 ^ ys.length < 256 ^ a.length := Nat.lt_of_le_of_lt h1 h2
      have := (Nat.pow_lt_pow_iff_right (by omega : 1 < 256)).1 h3
      exact this
  exact Nat.le_antisymm (key ha h.symm) (key hb h)

/-! ### Omitted keys -/

/-- The second map is the first with one more key. -/
def OneMore (n : Str) (v : Value) (a b : List (Str × Value)) : Prop :=
  (a.map Prod.fst).Nodup ∧ (b.map Prod.fst).Nodup ∧ lookup n a = none ∧ lookup n b = some v ∧
  ∀ k, k ≠ n → lookup k a = lookup k b

theorem oneMore_cons {n : Str} {v : Value} {a b : List (Str × Value)} (h : OneMore n v a b) {k : Str} {w : Value}
    (hk : hasKey k a = false) (hne : k ≠ n) : OneMore n v ((k, w) :: a) ((k, w) :: b) := by
  obtain ⟨h1, h2, h3, h4, h5⟩ := h
  have hb : hasKey k b = false := by unfold hasKey at hk ⊢; rw [← h5 k hne]; exact hk
  refine ⟨nodup_cons_key hk h1, nodup_cons_key hb h2, ?_, ?_, ?_⟩
  · unfold lookup
    rw [if_neg hne, h3]
  · unfold lookup
    rw [if_neg hne, h4]
  · intro j hj
    unfold lookup
    split
    · rfl
    · exact h5 j hj

theorem parseMatches_more {ti : TableInfo} {n : Str} {v : Value} : ∀ (ms : List FieldMatch)
    {a b : List (Str × Value)}, OneMore n v a b → (∀ m ∈ ms, ∀ w, parseKey m ti ≠ .ok (n, w)) →
    ResRel (OneMore n v) (parseMatches ti a ms) (parseMatches ti b ms) := by
  intro ms
  induction ms with
  | nil => exact fun h _ => h
  | cons m ms ih =>
    intro a b h hm
    unfold parseMatches
    refine ResRel.bind (R := Eq) (ResRel.refl (fun _ => rfl) _) ?_
    rintro ⟨k, w⟩ _ hk _ rfl
    dsimp only
    have hne : k ≠ n := fun he => hm m List.mem_cons_self w (he ▸ hk)
    unfold insertNew
    have hb : hasKey k b = hasKey k a := by unfold hasKey; rw [h.2.2.2.2 k hne]
    rw [hb]
    cases hka : hasKey k a with
    | true => exact rfl
    | false => exact ih (oneMore_cons h hka hne) fun m hm' => hm m (List.mem_cons_of_mem _ hm')

theorem addDefaults_more {n : Str} {ki : VarInfo} {v : Value} (hv : defaultValue ki = .ok v) :
    ∀ (ks : List (Str × VarInfo)) {a b : List (Str × Value)}, (ks.map Prod.fst).Nodup → OneMore n v a b →
    (n, ki) ∈ ks → ResRel SameMap (addDefaults a ks) (addDefaults b ks) := by
  intro ks
  induction ks with
  | nil => exact fun _ _ h => nomatch h
  | cons k ks ih =>
    intro a b hn h hmem
    obtain ⟨k, kj⟩ := k
    have hn' := List.nodup_cons.1 hn
    unfold addDefaults
    by_cases hk : k = n
    · subst hk
      have hkj : ki = kj := by
        rcases List.mem_cons.1 hmem with h1 | h1
        · injection h1 with _ h1
        · exact (hn'.1 (List.mem_map.2 ⟨_, h1, rfl⟩)).elim
      subst hkj
      have ha : hasKey k a = false := by unfold hasKey; rw [h.2.2.1]; rfl
      have hb : hasKey k b = true := by unfold hasKey; rw [h.2.2.2.1]; rfl
      rw [ha, hb, hv, Res.ok_bind]
      rw [if_neg (by simp), if_pos rfl]
      refine addDefaults_same ks ⟨nodup_cons_key ha h.1, h.2.1, fun j => ?_⟩
      conv => lhs; unfold lookup
      split
      · rename_i he
        rw [← he, h.2.2.2.1]
      · rename_i he
        exact h.2.2.2.2 j fun h' => he h'.symm
    · have hmem' : (n, ki) ∈ ks := by
        rcases List.mem_cons.1 hmem with h1 | h1
        · injection h1 with h1
          exact (hk h1.symm).elim
        · exact h1
      have hb : hasKey k b = hasKey k a := by unfold hasKey; rw [h.2.2.2.2 k hk]
      rw [hb]
      cases hka : hasKey k a with
      | true => exact ih hn'.2 h hmem'
      | false =>
        rw [if_neg (by simp), if_neg (by simp)]
        refine ResRel.bind (R := Eq) (ResRel.refl (fun _ => rfl) _) ?_
        rintro w _ _ _ rfl
        exact ih hn'.2 (oneMore_cons h hka hk) hmem'

theorem parseMatches_append {ti : TableInfo} : ∀ (ms ms' : List FieldMatch) (a : List (Str × Value)),
    parseMatches ti a (ms ++ ms') = (parseMatches ti a ms >>= fun k => parseMatches ti k ms') := by
  intro ms
  induction ms with
  | nil => exact fun _ _ => rfl
  | cons m ms ih =>
    intro ms' a
    rw [List.cons_append, parseMatches, parseMatches, bind_assoc]
    congr 1
    funext x
    obtain ⟨n, v⟩ := x
    dsimp only
    cases insertNew n v a with
    | none => rfl
    | some k => exact ih ms' k

theorem parseTableEntry_wildcard {ti : TableInfo} (hwf : TableWF ti) {entry : RtEntry} {ms ms' : List FieldMatch}
    {m : FieldMatch} {ki : VarInfo} {v : Value} (hki : (m.fieldId, ki) ∈ ti.keysById)
    (hd : MatchDenotes ki.ty m.val v) (hw : WildcardOf ki.ty v) (hno : ∀ m' ∈ ms ++ ms', m'.fieldId ≠ m.fieldId) :
    ResRel SameCtx (parseTableEntry { entry with matches_ := ms ++ ms' } ti)
      (parseTableEntry { entry with matches_ := ms ++ m :: ms' } ti) := by
  have hname : ∀ m' ∈ ms ++ ms', ∀ w, parseKey m' ti ≠ .ok (ki.name, w) := by
    intro m' hm' w h
    obtain ⟨kj, h1, h2, _⟩ := parseKey_ok.1 h
    have := hwf.name_inj (hwf.lookup_id.1 h1) hki h2.symm
    exact hno m' hm' this.2
  have hkey : parseKey m ti = .ok (ki.name, v) := parseKey_ok.2 ⟨ki, hwf.lookup_id.2 hki, rfl, hd⟩
  unfold parseTableEntry
  dsimp only
  have h1 : ResRel (OneMore ki.name v) (parseMatches ti [] (ms ++ ms')) (parseMatches ti [] (ms ++ m :: ms')) := by
    rw [parseMatches_append, parseMatches_append]
    cases hm : parseMatches ti [] ms with
    | ok k =>
      rw [Res.ok_bind, Res.ok_bind, parseMatches, hkey, Res.ok_bind]
      have hk : hasKey ki.name k = false := by
        obtain ⟨ps, h1, _, _, h4⟩ := parseMatches_ok.1 hm
        refine hasKey_false.2 fun w hw => ?_
        rw [h4, List.append_nil, List.mem_reverse] at hw
        obtain ⟨m', hm', h5⟩ := (map_ok_mem h1).2 _ hw
        exact hname m' (List.mem_append_left _ hm') w h5
      have hn : (k.map Prod.fst).Nodup := parseMatches_nodup _ (by simp) hm
      have h2 : insertNew ki.name v k = some ((ki.name, v) :: k) := by
        unfold insertNew
        rw [if_neg (by simp [hk])]
      dsimp only
      rw [h2]
      refine parseMatches_more ms' ⟨hn, nodup_cons_key hk hn, ?_, ?_, ?_⟩ fun m' hm' =>
        hname m' (List.mem_append_right _ hm')
      · unfold hasKey at hk
        cases h : lookup ki.name k with
        | none => rfl
        | some _ => rw [h] at hk; cases hk
      · unfold lookup
        rw [if_pos rfl]
      · intro j hj
        conv => rhs; unfold lookup
        rw [if_neg fun h => hj h.symm]
    | err _ => exact rfl
    | crash => trivial
    | oof => trivial
  refine ResRel.bind h1 fun a b _ _ hab => ?_
  refine ResRel.bind (addDefaults_more (defaultValue_ok.2 hw) ti.keysByName hwf.nodupName hab (hwf.byId _ _ hki).2) ?_
  intro c d _ _ hcd
  exact ⟨rfl, .inl ⟨ti.name, entry.priority, c, d, rfl, rfl, hcd⟩⟩

/-! ### Defective entries -/

theorem parseKey_errors {ti : TableInfo} (hwf : TableWF ti)
    (hk : ∀ id ki, (id, ki) ∈ ti.keysById → MatchKind ki.ty) (m : FieldMatch) :
    (∃ ki v, (m.fieldId, ki) ∈ ti.keysById ∧ MatchDenotes ki.ty m.val v ∧ parseKey m ti = .ok (ki.name, v)) ∨
    parseKey m ti = .err .invalidArgument ∧ ((∀ ki, (m.fieldId, ki) ∉ ti.keysById) ∨ m.val = .notSet ∨ m.val = .other) ∨
    parseKey m ti = .err .internal ∧ m.val ≠ .notSet ∧ m.val ≠ .other ∧
      ∃ ki, (m.fieldId, ki) ∈ ti.keysById ∧ ¬ OfKind ki.ty m.val := by
  cases hl : lookup m.fieldId ti.keysById with
  | none =>
    right; left
    refine ⟨by unfold parseKey; rw [hl], .inl fun ki h => ?_⟩
    rw [hwf.lookup_id.2 h] at hl
    cases hl
  | some ki =>
    have hki := hwf.lookup_id.1 hl
    by_cases hex : ∃ v, MatchDenotes ki.ty m.val v
    · obtain ⟨v, hv⟩ := hex
      exact .inl ⟨ki, v, hki, hv, parseKey_ok.2 ⟨ki, hl, rfl, hv⟩⟩
    · right
      by_cases h0 : m.val = .notSet ∨ m.val = .other
      · left
        refine ⟨?_, .inr h0⟩
        unfold parseKey
        rw [hl]
        dsimp only
        rcases h0 with h0 | h0 <;> rw [h0]
      · right
        have hnk : ¬ OfKind ki.ty m.val := by
          intro hof
          apply hex
          have h1 := hk _ _ hki
          generalize ht : ki.ty = t at hof h1
          generalize m.val = mv at hof
          cases hof with
          | exact w v => exact ⟨_, .exact w v⟩
          | ternary w v m => exact ⟨_, .ternary w v m⟩
          | lpm w v p => exact ⟨_, .lpm w v p⟩
          | range w l h => exact ⟨_, .range w l h⟩
          | optional w v =>
            cases h1 with
            | optional w => exact ⟨_, .optional w v⟩
        refine ⟨?_, fun h => h0 (.inl h), fun h => h0 (.inr h), ki, hki, hnk⟩
        unfold parseKey
        rw [hl]
        dsimp only
        generalize ki.ty = t at hnk
        generalize m.val = mv at hnk h0
        cases mv <;> cases t <;> first
          | rfl
          | exact (hnk (by constructor)).elim
          | exact (h0 (.inl rfl)).elim
          | exact (h0 (.inr rfl)).elim

theorem parseMatches_errors {ti : TableInfo} (hwf : TableWF ti)
    (hk : ∀ id ki, (id, ki) ∈ ti.keysById → MatchKind ki.ty) : ∀ (ms : List FieldMatch) (a : List (Str × Value)),
    (∃ b, parseMatches ti a ms = .ok b) ∨ parseMatches ti a ms = .err .invalidArgument ∨
    parseMatches ti a ms = .err .internal ∧ ∃ m ∈ ms, m.val ≠ .notSet ∧ m.val ≠ .other ∧
      ∃ ki, (m.fieldId, ki) ∈ ti.keysById ∧ ¬ OfKind ki.ty m.val := by
  intro ms
  induction ms with
  | nil => exact fun a => .inl ⟨a, rfl⟩
  | cons m ms ih =>
    intro a
    unfold parseMatches
    rcases parseKey_errors hwf hk m with ⟨ki, v, _, _, h⟩ | ⟨h, _⟩ | ⟨h, h'⟩
    · rw [h, Res.ok_bind]
      dsimp only
      cases insertNew ki.name v a with
      | none => exact .inr (.inl rfl)
      | some k =>
        rcases ih k with h1 | h1 | ⟨h1, m', hm', h2⟩
        · exact .inl h1
        · exact .inr (.inl h1)
        · exact .inr (.inr ⟨h1, m', List.mem_cons_of_mem _ hm', h2⟩)
    · rw [h]
      exact .inr (.inl rfl)
    · rw [h]
      exact .inr (.inr ⟨rfl, m, List.mem_cons_self, h'⟩)

theorem parseTableEntry_errors {ti : TableInfo} (hwf : TableWF ti)
    (hk : ∀ id ki, (id, ki) ∈ ti.keysById → MatchKind ki.ty) (entry : RtEntry) :
    (∃ ctx, parseTableEntry entry ti = .ok ctx) ∨ parseTableEntry entry ti = .err .invalidArgument ∨
    parseTableEntry entry ti = .err .internal ∧ WrongKind ti entry := by
  unfold parseTableEntry
  rcases parseMatches_errors hwf hk entry.matches_ [] with ⟨b, h⟩ | h | ⟨h, h'⟩
  · rw [h, Res.ok_bind]
    rcases addDefaults_kind ti.keysByName b (fun n ki hn => hk _ ki (hwf.byName n ki hn).2) with ⟨c, h1⟩ | h1
    · rw [h1]
      exact .inl ⟨_, rfl⟩
    · rw [h1]
      exact .inr (.inl rfl)
  · rw [h]
    exact .inr (.inl rfl)
  · rw [h]
    exact .inr (.inr ⟨rfl, h'⟩)

theorem entryOk_iff {ti : TableInfo} (hwf : TableWF ti) (hk : ∀ id ki, (id, ki) ∈ ti.keysById → MatchKind ki.ty)
    (entry : RtEntry) : EntryOk ti entry ↔ ¬ UnknownKey ti entry ∧ ¬ RepeatedKey entry ∧ ¬ MissingKey ti entry ∧
      ¬ EmptyMatch entry ∧ ¬ WrongKind ti entry := by
  constructor
  · intro h
    refine ⟨?_, fun hr => hr h.once, ?_, ?_, ?_⟩
    · rintro ⟨m, hm, hno⟩
      obtain ⟨ki, hki, _⟩ := h.known m hm
      exact hno ki hki
    · rintro ⟨id, ki, w, hki, ht, hno⟩
      rcases h.complete id ki hki with ⟨m, hm, hid⟩ | ⟨v, hv⟩
      · exact hno m hm hid
      · rw [ht] at hv
        cases hv
    · rintro ⟨m, hm, h0⟩
      obtain ⟨ki, hki, v, hv⟩ := h.known m hm
      generalize ki.ty = t at hv
      rcases h0 with h0 | h0 <;> rw [h0] at hv <;> cases hv
    · rintro ⟨m, hm, _, _, ki, hki, hno⟩
      obtain ⟨kj, hkj, v, hv⟩ := h.known m hm
      have := nodup_keys_unique hwf.nodupId hki hkj
      subst this
      apply hno
      generalize ki.ty = t at hv
      generalize m.val = mv at hv
      cases hv <;> constructor
  · rintro ⟨h1, h2, h3, h4, h5⟩
    refine ⟨fun m hm => ?_, Classical.byContradiction h2, fun id ki hki => ?_⟩
    · rcases parseKey_errors hwf hk m with ⟨ki, v, h6, h7, _⟩ | ⟨_, h6 | h6⟩ | ⟨_, h6⟩
      · exact ⟨ki, h6, v, h7⟩
      · exact (h1 ⟨m, hm, h6⟩).elim
      · exact (h4 ⟨m, hm, h6⟩).elim
      · exact (h5 ⟨m, hm, h6⟩).elim
    · by_cases hex : ∃ m ∈ entry.matches_, m.fieldId = id
      · exact .inl hex
      · right
        have h6 := hk id ki hki
        cases ht : ki.ty with
        | exact w => exact (h3 ⟨id, ki, w, hki, ht, fun m hm he => hex ⟨m, hm, he⟩⟩).elim
        | ternary w => exact ⟨_, .ternary w⟩
        | lpm w => exact ⟨_, .lpm w⟩
        | optionalMatch w => exact ⟨_, .optional w⟩
        | range w =>
          rw [ht] at h6
          cases h6 with
          | range w => exact ⟨_, .range w⟩
        | _ => rw [ht] at h6; exact nomatch h6

theorem infoWF_of {sys : Sys} {p : P4Info} {ci : ConstraintInfo} (h : p4ToConstraintInfo sys p = .ok ci) :
    InfoWF ci := by
  obtain ⟨ts, as, h1, h2, h3, h4, h5⟩ := p4ToConstraintInfo_ok.1 h
  have n1 : (ci.tables.map Prod.fst).Nodup := by
    rw [h5]
    rw [List.map_reverse, (List.reverse_perm _).nodup_iff, collect_keys h1]
    exact h3
  have n2 : (ci.actions.map Prod.fst).Nodup := by
    rw [h5]
    rw [List.map_reverse, (List.reverse_perm _).nodup_iff, collect_keys h2]
    exact h4
  refine ⟨n1, n2, fun id ti hti => ?_, fun id ai hai => ?_⟩
  · obtain ⟨d, _, _, hd⟩ := (table_of_info h).1 ((lookup_iff_mem n1).2 hti)
    exact parseTableInfo_wf hd
  · obtain ⟨d, _, _, hd⟩ := (action_of_info h).1 ((lookup_iff_mem n2).2 hai)
    exact parseActionInfo_wf hd

end P4C
