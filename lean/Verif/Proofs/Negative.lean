import Verif.Spec.Negative
import Verif.Proofs.EntryFault
import Verif.Proofs.EntryReport
import Verif.Proofs.Constant

/-
Lemmas for C92.
-/

namespace P4C

open Spec

theorem maxValue_cases (w : Int) : (w < 0 ∧ maxValueForBitwidth w = .crash) ∨ (0 ≤ w ∧ maxValueForBitwidth w = .ok (2 ^ w.toNat - 1)) := by
  unfold maxValueForBitwidth shl1
  by_cases h : w < 0
  · rw [if_pos h]; exact .inl ⟨h, rfl⟩
  · rw [if_neg h]; exact .inr ⟨by omega, rfl⟩

section
variable {ti : TableInfo} {fs : List MatchField} {vs : List VarInfo} (hv : Each KeyDecl fs vs) (hd : Distinct vs)
  (hm : Maps vs ti.keysById ti.keysByName)

/-- The match cannot be represented. -/
def Bad (f : MatchField) : Prop := f.kind = .matchType .optional ∧ f.bitwidth < 0

theorem parseKey_shaped {m : FieldMatch} {f : MatchField} {ki : VarInfo} (hk : KeyDecl f ki)
    (hl : lookup m.fieldId ti.keysById = some ki) (hs : OfDeclared f.kind m.val) :
    (Bad f ∧ parseKey m ti = .crash) ∨ (¬ Bad f ∧ ∃ v, parseKey m ti = .ok (ki.name, v)) := by
  obtain ⟨fid, val⟩ := m
  unfold parseKey
  rw [hl]
  cases hk <;> cases hs <;> simp only [Bad, MatchCase.matchType.injEq, reduceCtorEq, false_and, not_false_eq_true, true_and, false_or]
  all_goals try exact ⟨_, rfl⟩
  rename_i w v
  rcases maxValue_cases w with ⟨h1, h2⟩ | ⟨h1, h2⟩
  · exact .inl ⟨h1, by rw [h2]; rfl⟩
  · exact .inr ⟨by omega, _, by rw [h2]; rfl⟩

include hv hd hm in
theorem parseMatches_shaped : ∀ {ms pre : List FieldMatch} {acc : List (Str × Value)}, Matched vs pre acc →
    ((pre ++ ms).map FieldMatch.fieldId).Nodup → (∀ m ∈ ms, ∃ f ∈ fs, f.id = m.fieldId ∧ OfDeclared f.kind m.val) →
    ((∃ f ∈ fs, Bad f ∧ ∃ m ∈ ms, m.fieldId = f.id) ∧ parseMatches ti acc ms = .crash) ∨
    (¬ (∃ f ∈ fs, Bad f ∧ ∃ m ∈ ms, m.fieldId = f.id) ∧ ∃ keys, parseMatches ti acc ms = .ok keys ∧ Matched vs (pre ++ ms) keys)
  | [], pre, acc, h1, _, _ => .inr ⟨by simp, acc, rfl, by simpa using h1⟩
  | m :: ms, pre, acc, h1, h2, h3 => by
    obtain ⟨f, hf, hid, hs⟩ := h3 m (by simp)
    obtain ⟨ki, hki, hk⟩ := each_mem_left hv f hf
    have hkid : ki.id = m.fieldId := by rw [← hid]; cases hk <;> rfl
    have hl : lookup m.fieldId ti.keysById = some ki := by
      exact (lookup_iff_mem hm.nodupId).2 ((hm.byId _ _).2 ⟨hki, hkid⟩)
    have huniq : ∀ f' ∈ fs, f'.id = m.fieldId → Bad f' → Bad f := by
      intro f' hf' hid' hb
      obtain ⟨ki', hki', hk'⟩ := each_mem_left hv f' hf'
      have e : ki' = ki := byId_unique hd hki' hki (by rw [hkid, ← hid']; cases hk' <;> rfl)
      subst e
      revert hb
      unfold Bad
      cases hk <;> cases hk' <;> simp
    rcases parseKey_shaped hk hl hs with ⟨hb, hp⟩ | ⟨hb, v, hp⟩
    · left
      refine ⟨⟨f, hf, hb, m, by simp, hid.symm⟩, ?_⟩
      unfold parseMatches
      rw [hp]; rfl
    · have hins : insertNew ki.name v acc = some ((ki.name, v) :: acc) := by
        rw [insertNew_some]
        refine ⟨?_, rfl⟩
        cases hh : hasKey ki.name acc with
        | false => rfl
        | true =>
          obtain ⟨m', hm', ki', k1, k2, k3⟩ := (h1 _).1 hh
          have e := byName_unique hd k1 hki k3
          subst e
          rw [List.map_append, List.nodup_append] at h2
          exact (h2.2.2 m'.fieldId (List.mem_map_of_mem hm') m.fieldId (by simp) (k2.symm.trans hkid)).elim
      have hstep : parseMatches ti acc (m :: ms) = parseMatches ti ((ki.name, v) :: acc) ms := by
        rw [parseMatches, hp]
        show (match insertNew ki.name v acc with | none => _ | some keys => _) = _
        rw [hins]
      have e : pre ++ m :: ms = (pre ++ [m]) ++ ms := by simp
      rw [hstep, e]
      rw [e] at h2
      have hmat : Matched vs (pre ++ [m]) ((ki.name, v) :: acc) := by
        intro n
        rw [hasKey_keys, List.map_cons, List.mem_cons, ← hasKey_keys, h1 n]
        constructor
        · rintro (rfl | ⟨m', hm', h⟩)
          · exact ⟨m, by simp, ki, hki, hkid, rfl⟩
          · exact ⟨m', by simp [hm'], h⟩
        · rintro ⟨m', hm', ki', k4, k5, k6⟩
          rcases List.mem_append.1 hm' with hm' | hm'
          · exact .inr ⟨m', hm', ki', k4, k5, k6⟩
          · rw [List.mem_singleton.1 hm'] at k5
            rw [byId_unique hd hki k4 (hkid.trans k5.symm)]
            exact .inl k6.symm
      have hrec := parseMatches_shaped (ms := ms) hmat h2 (fun m' hm' => h3 m' (by simp [hm']))
      have hequiv : (∃ f ∈ fs, Bad f ∧ ∃ m' ∈ m :: ms, m'.fieldId = f.id) ↔ ∃ f ∈ fs, Bad f ∧ ∃ m' ∈ ms, m'.fieldId = f.id := by
        constructor
        · rintro ⟨f', hf', hb', m', hm', hid'⟩
          rcases List.mem_cons.1 hm' with rfl | hm'
          · exact (hb (huniq f' hf' hid'.symm hb')).elim
          · exact ⟨f', hf', hb', m', hm', hid'⟩
        · rintro ⟨f', hf', hb', m', hm', hid'⟩
          exact ⟨f', hf', hb', m', by simp [hm'], hid'⟩
      rw [hequiv]
      exact hrec

omit hv hd hm in
theorem addDefaults_shaped : ∀ {ks : List (Str × VarInfo)} {acc : List (Str × Value)}, (ks.map Prod.fst).Nodup →
    (∀ k ∈ ks, hasKey k.1 acc = false → defaultValue k.2 = .crash ∨ ∃ v, defaultValue k.2 = .ok v) →
    ((∃ k ∈ ks, hasKey k.1 acc = false ∧ defaultValue k.2 = .crash) ∧ addDefaults acc ks = .crash) ∨
    (¬ (∃ k ∈ ks, hasKey k.1 acc = false ∧ defaultValue k.2 = .crash) ∧ ∃ keys, addDefaults acc ks = .ok keys)
  | [], acc, _, _ => .inr ⟨by simp, acc, rfl⟩
  | (n, ki) :: ks, acc, h1, h2 => by
    rw [List.map_cons, List.nodup_cons] at h1
    by_cases hk : hasKey n acc = true
    · have e : addDefaults acc ((n, ki) :: ks) = addDefaults acc ks := by rw [addDefaults, if_pos hk]
      have hiff : (∃ k ∈ (n, ki) :: ks, hasKey k.1 acc = false ∧ defaultValue k.2 = .crash) ↔
          ∃ k ∈ ks, hasKey k.1 acc = false ∧ defaultValue k.2 = .crash := by simp [hk]
      rw [e, hiff]
      exact addDefaults_shaped h1.2 (fun k hk' => h2 k (by simp [hk']))
    · have hf : hasKey n acc = false := by simpa using hk
      rcases h2 (n, ki) (by simp) hf with hc | ⟨v, hv⟩
      · exact .inl ⟨⟨_, by simp, hf, hc⟩, by rw [addDefaults, if_neg hk, hc]; rfl⟩
      · have e : addDefaults acc ((n, ki) :: ks) = addDefaults ((n, v) :: acc) ks := by rw [addDefaults, if_neg hk, hv]; rfl
        have hkeep : ∀ k ∈ ks, hasKey k.1 ((n, v) :: acc) = hasKey k.1 acc := by
          intro k hk'
          have hne : k.1 ≠ n := fun e => h1.1 (List.mem_map.2 ⟨k, hk', e⟩)
          rw [Bool.eq_iff_iff, hasKey_keys, hasKey_keys]
          simp [hne]
        have hiff : (∃ k ∈ (n, ki) :: ks, hasKey k.1 acc = false ∧ defaultValue k.2 = .crash) ↔
            ∃ k ∈ ks, hasKey k.1 ((n, v) :: acc) = false ∧ defaultValue k.2 = .crash := by
          constructor
          · rintro ⟨k, h3, h4, h5⟩
            rcases List.mem_cons.1 h3 with rfl | h3
            · rw [hv] at h5; cases h5
            · exact ⟨k, h3, by rw [hkeep k h3, h4], h5⟩
          · rintro ⟨k, h3, h4, h5⟩
            exact ⟨k, by simp [h3], by rw [← hkeep k h3, h4], h5⟩
        rw [e, hiff]
        exact addDefaults_shaped h1.2 (fun k hk' h => h2 k (by simp [hk']) (by rw [← hkeep k hk', h]))

omit hv hd hm in
theorem default_shaped {f : MatchField} {ki : VarInfo} (hk : KeyDecl f ki) (ho : MayOmit f) :
    ((f.kind = .matchType .range ∧ f.bitwidth < 0) ∧ defaultValue ki = .crash) ∨
    (¬ (f.kind = .matchType .range ∧ f.bitwidth < 0) ∧ ∃ v, defaultValue ki = .ok v) := by
  unfold MayOmit at ho
  unfold defaultValue
  cases hk <;> simp at ho ⊢
  rename_i w
  rcases maxValue_cases w with ⟨h1, h2⟩ | ⟨h1, h2⟩
  · exact .inl ⟨h1, by rw [h2]; rfl⟩
  · exact .inr ⟨by omega, _, by rw [h2]; rfl⟩

include hv hd hm in
/-- What becomes of the entry. -/
theorem parseTableEntry_shaped {entry : RtEntry} (hs : EntryShaped fs entry) :
    (NeedsMask fs entry ∧ parseTableEntry entry ti = .crash) ∨ (¬ NeedsMask fs entry ∧ ∃ ctx, parseTableEntry entry ti = .ok ctx) := by
  rcases parseMatches_shaped hv hd hm (ms := entry.matches_) (pre := []) (acc := []) (by intro n; simp [hasKey, lookup])
    (by simpa using hs.once) hs.known with ⟨⟨f, h1, h2, h3⟩, h4⟩ | ⟨h1, keys, h2, h3⟩
  · exact .inl ⟨⟨f, h1, h2.2, .inr ⟨h2.1, h3⟩⟩, by unfold parseTableEntry; rw [h4]; rfl⟩
  · rw [List.nil_append] at h3
    have hom : ∀ {n : Str} {ki : VarInfo}, (n, ki) ∈ ti.keysByName → hasKey n keys = false →
        ∃ f ∈ fs, KeyDecl f ki ∧ (∀ m ∈ entry.matches_, m.fieldId ≠ f.id) ∧ MayOmit f := by
      intro n ki hk hf
      obtain ⟨hki, rfl⟩ := (hm.byName _ _).1 hk
      obtain ⟨f, hff, hk⟩ := each_mem hv ki hki
      have hid : ki.id = f.id := by cases hk <;> rfl
      have hno : ∀ m ∈ entry.matches_, m.fieldId ≠ f.id := by
        intro m hmm e
        have := (h3 ki.name).2 ⟨m, hmm, ki, hki, hid.trans e.symm, rfl⟩
        rw [hf] at this
        cases this
      rcases hs.complete f hff with ⟨m, hmm, e⟩ | h
      · exact (hno m hmm e).elim
      · exact ⟨f, hff, hk, hno, h⟩
    rcases addDefaults_shaped (acc := keys) hm.nodupName (by
      rintro ⟨n, ki⟩ hk hf
      obtain ⟨f, _, g1, _, g3⟩ := hom hk hf
      rcases default_shaped g1 g3 with h | h
      · exact .inl h.2
      · exact .inr h.2) with ⟨⟨⟨n, ki⟩, g1, g2, g3⟩, g4⟩ | ⟨g1, keys', g2⟩
    · obtain ⟨f, k1, k2, k3, k4⟩ := hom g1 g2
      rcases default_shaped k2 k4 with h | ⟨_, v, h⟩
      · exact .inl ⟨⟨f, k1, h.1.2, .inl ⟨h.1.1, k3⟩⟩, by unfold parseTableEntry; rw [h2, Res.ok_bind, g4]; rfl⟩
      · dsimp only at g3
        rw [h] at g3; cases g3
    · refine .inr ⟨?_, _, by unfold parseTableEntry; rw [h2, Res.ok_bind, g2]; rfl⟩
      rintro ⟨f, k1, k2, ⟨k3, k4⟩ | ⟨k3, k4⟩⟩
      · obtain ⟨ki, hki, hk⟩ := each_mem_left hv f k1
        have hid : ki.id = f.id := by cases hk <;> rfl
        refine g1 ⟨(ki.name, ki), (hm.byName _ _).2 ⟨hki, rfl⟩, ?_, ?_⟩
        · cases hh : hasKey ki.name keys with
          | false => rfl
          | true =>
            obtain ⟨m, hmm, ki', e1, e2, e3⟩ := (h3 _).1 hh
            have := byName_unique hd e1 hki e3
            subst this
            exact (k4 m hmm (e2.symm.trans hid)).elim
        · rcases default_shaped hk (.inr (.inr (.inl k3))) with h | h
          · exact h.2
          · exact (h.1 ⟨k3, k2⟩).elim
      · exact h1 ⟨f, k1, ⟨k3, k2⟩, k4⟩

end

/-- The constraint that a table says, as it is stored. -/
theorem says_stored {sys : Sys} {d : TableDecl} {ti : TableInfo} (hp : parseTableInfo sys d = .ok ti) {s : SExpr}
    (hs : TableSays sys.inetPton6 d s) :
    ∃ c e, ti.constraint = some c ∧ c.ty = .boolean ∧ abs e = some s ∧ inferAndCheck ti.source (.table ti.keysByName) e = .ok c := by
  obtain ⟨vs, src, e, hv, hr⟩ := hs
  cases hc : ti.constraint with
  | none =>
    obtain ⟨vs', h1, h2, h3, h4⟩ := parseTableInfo_parts hp
    rw [hc] at h4
    cases hr with
    | some h5 => cases attached_unique (parseAndCheck_none h4) h5
  | some c =>
    obtain ⟨vs', e', s', r⟩ := table_read hp hc
    cases each_unique (R := KeyDecl) (fun _ _ _ => keyDecl_unique) hv r.keys
    have h6 := readConstraint_unique hr r.read
    simp only [Option.some.injEq, Prod.mk.injEq] at h6
    obtain ⟨_, _, h7, h8⟩ := h6
    exact ⟨c, e', rfl, h8.symm, h7 ▸ r.meant, r.typed⟩

section
variable {sys : Sys} {p : P4Info} {ci : ConstraintInfo} (h : p4ToConstraintInfo sys p = .ok ci)
  {d : TableDecl} (hd : d ∈ p.tables) {entry : RtEntry} (hid : entry.tableId = d.preamble.id)
  (hf : EntryShaped d.matchFields entry) {s : SExpr} (hs : TableSays sys.inetPton6 d s)

include h hd hid hf hs in
theorem negative_reason (hn : NeedsMask d.matchFields entry) : reasonEntryViolatesConstraint entry ci = .crash := by
  obtain ⟨ti, hl, hp⟩ := table_declared h hd
  rw [← hid] at hl
  obtain ⟨vs, hv, hdist, hmaps, _⟩ := parseTableInfo_parts hp
  have hc : parseTableEntry entry ti = .crash := by
    rcases parseTableEntry_shaped hv hdist hmaps hf with h | h
    · exact h.2
    · exact (h.1 hn).elim
  obtain ⟨c, e, hcc, hty, _⟩ := says_stored hp hs
  rw [reason_found hl]
  unfold tableReason
  rw [hcc]
  dsimp only
  unfold checkConstraint
  rw [if_neg (by simpa using hty), hc]
  rfl

include h hd hid hf in
/-- The constraint `true`. -/
theorem negative_true (hs : TableSays sys.inetPton6 d (.bool true)) (ha : entry.action = none)
    (hn : ¬ NeedsMask d.matchFields entry) : reasonEntryViolatesConstraint entry ci = .ok [] := by
  obtain ⟨ti, hl, hp⟩ := table_declared h hd
  rw [← hid] at hl
  obtain ⟨vs, hv, hdist, hmaps, _⟩ := parseTableInfo_parts hp
  obtain ⟨ctx, hc⟩ : ∃ ctx, parseTableEntry entry ti = .ok ctx := by
    rcases parseTableEntry_shaped hv hdist hmaps hf with h | h
    · exact (hn h.1).elim
    · exact h.2
  obtain ⟨c, e, hcc, hty, habs, hinf⟩ := says_stored hp hs
  have he : ∃ i, e = .boolConst i true := by
    cases e with
    | boolConst i b => simp [abs] at habs; exact ⟨i, by rw [habs]⟩
    | bin i op l r =>
      simp only [abs, Option.bind_eq_some_iff] at habs
      obtain ⟨x, _, y, _, hb⟩ := habs
      cases op <;> simp [binop] at hb
    | _ => simp [abs] at habs
  obtain ⟨i, rfl⟩ := he
  obtain ⟨i', rfl⟩ : ∃ i', c = .boolConst i' true := by
    cases hinf
    exact ⟨_, rfl⟩
  rw [reason_found hl, ha]
  unfold tableReason
  rw [hcc]
  dsimp only
  unfold checkConstraint
  rw [if_neg (by simpa using hty), hc]
  simp only [Expr.ty, Expr.info] at hty
  simp [evalToBoolC, evalToBool, evalToBoolWith, eval, dynCheck, valueMatchesTy, Expr.ty, Expr.info, hty, reasonTableAction]
  rfl

end

end P4C
