import Verif.Proofs.IdText
import Verif.Proofs.EntryMessage
import Verif.Proofs.Entry2
import Verif.Proofs.Program
import Verif.Proofs.Report

/-
Messages about entries that do not fit the table or action (interpreter.cc:125-275).
-/

namespace P4C

open Spec

theorem ofRes_err {α : Type} {t : Str} {r : Res α} {c : Code} {m : Str} (h : MRes.ofRes t r = .err c m) : r = .err c := by
  cases r <;> simp_all [MRes.ofRes]

theorem maxValue_ne_err {w : Int} {c : Code} : maxValueForBitwidth w ≠ .err c := by
  unfold maxValueForBitwidth shl1
  split <;> simp

theorem erased {α : Type} {r : MRes α} {a : α} : r = .ok a ↔ r.erase = .ok a := by
  cases r <;> simp [MRes.erase]

/-- Variables are known by their ids. -/
theorem byId_unique {vs : List VarInfo} (hd : Distinct vs) {a b : VarInfo} (ha : a ∈ vs) (hb : b ∈ vs) (h : a.id = b.id) :
    a = b := by
  have key : ∀ l : List VarInfo, (l.map VarInfo.id).Nodup → ∀ a ∈ l, ∀ b ∈ l, a.id = b.id → a = b := by
    intro l
    induction l with
    | nil => simp
    | cons x l ih =>
      intro hn a ha b hb h
      simp only [List.map_cons, List.nodup_cons, List.mem_map, not_exists, not_and] at hn
      rcases List.mem_cons.1 ha with ea | ha' <;> rcases List.mem_cons.1 hb with eb | hb'
      · rw [ea, eb]
      · subst ea; exact (hn.1 b hb' h.symm).elim
      · subst eb; exact (hn.1 a ha' h).elim
      · exact ih hn.2 a ha' b hb' h
  exact key vs hd.1 a ha b hb h

theorem byName_unique {vs : List VarInfo} (hd : Distinct vs) {a b : VarInfo} (ha : a ∈ vs) (hb : b ∈ vs)
    (h : a.name = b.name) : a = b := by
  have key : ∀ l : List VarInfo, (l.map VarInfo.name).Nodup → ∀ a ∈ l, ∀ b ∈ l, a.name = b.name → a = b := by
    intro l
    induction l with
    | nil => simp
    | cons x l ih =>
      intro hn a ha b hb h
      simp only [List.map_cons, List.nodup_cons, List.mem_map, not_exists, not_and] at hn
      rcases List.mem_cons.1 ha with ea | ha' <;> rcases List.mem_cons.1 hb with eb | hb'
      · rw [ea, eb]
      · subst ea; exact (hn.1 b hb' h.symm).elim
      · subst eb; exact (hn.1 a ha' h).elim
      · exact ih hn.2 a ha' b hb' h
  exact key vs hd.2 a ha b hb h

/-! ### Matches -/

theorem parseKeyM_ok {x : EntryTexts} {fm : FieldMatch} {ti : TableInfo} {vs : List VarInfo}
    (hm : Maps vs ti.keysById ti.keysByName) {n : Str} {v : Value} :
    parseKeyM x fm ti = .ok (n, v) ↔ ∃ ki ∈ vs, ki.id = fm.fieldId ∧ n = ki.name ∧ MatchDenotes ki.ty fm.val v := by
  rw [erased, erase_parseKey, parseKey_ok]
  constructor
  · rintro ⟨ki, h1, h2, h3⟩
    obtain ⟨h4, h5⟩ := (hm.byId _ _).1 (lookup_some_mem h1)
    exact ⟨ki, h4, h5, h2, h3⟩
  · rintro ⟨ki, h1, h2, h3, h4⟩
    exact ⟨ki, (lookup_iff_mem hm.nodupId).2 ((hm.byId _ _).2 ⟨h1, h2⟩), h3, h4⟩

theorem parseKeyM_err {x : EntryTexts} {fm : FieldMatch} {ti : TableInfo} {vs : List VarInfo}
    (hm : Maps vs ti.keysById ti.keysByName) {c : Code} {text : Str} (h : parseKeyM x fm ti = .err c text) :
    MatchFault x vs fm c text := by
  unfold parseKeyM at h
  cases hl : lookup fm.fieldId ti.keysById with
  | none =>
    rw [hl] at h
    simp only [MRes.err.injEq] at h
    obtain ⟨rfl, rfl⟩ := h
    refine .unknown (fun ki hki e => ?_) (idText_iff.2 rfl)
    exact lookup_none_iff.1 hl ki ((hm.byId _ _).2 ⟨hki, e⟩)
  | some ki =>
    obtain ⟨h1, h2⟩ := (hm.byId _ _).1 (lookup_some_mem hl)
    rw [hl] at h
    dsimp only at h
    have hd : ∀ v, MatchDenotes ki.ty fm.val v → False := by
      intro v hv
      have := (parseKeyM_ok (x := x) hm).2 ⟨ki, h1, h2, rfl, hv⟩
      unfold parseKeyM at this
      rw [hl] at this
      dsimp only at this
      rw [h] at this
      cases this
    generalize hv : fm.val = mv at h hd
    have hk : mv ≠ .notSet → mv ≠ .other → c = .internal →
        text = x.retCheck mv ++ c!"P4RT table entry inconsistent with P4 program" → MatchFault x vs fm c text := by
      rintro a b rfl rfl
      rw [← hv]
      exact .kind h1 h2 (hv ▸ a) (hv ▸ b) fun v hv' => hd v (hv ▸ hv')
    have he : mv = .notSet ∨ mv = .other → c = .invalidArgument →
        text = c!"unsupported P4RT field match type " ++ x.matchCase mv → MatchFault x vs fm c text := by
      rintro a rfl rfl
      rw [← hv]
      exact .empty h1 h2 (hv ▸ a)
    cases mv with
    | notSet => simp only [MRes.err.injEq] at h; exact he (.inl rfl) h.1.symm h.2.symm
    | other => simp only [MRes.err.injEq] at h; exact he (.inr rfl) h.1.symm h.2.symm
    | optional v =>
      refine hk (by simp) (by simp) ?_ ?_ <;> generalize ki.ty = t at h <;> cases t <;>
        first
          | (simp only [MRes.err.injEq] at h; first | exact h.1.symm | exact h.2.symm)
          | (simp only [mbind_err] at h
             rcases h with h | ⟨_, _, h⟩
             · exact (maxValue_ne_err (ofRes_err h)).elim
             · cases h)
    | _ =>
      refine hk (by simp) (by simp) ?_ ?_ <;> generalize ki.ty = t at h <;> cases t <;>
        simp only [MRes.err.injEq, reduceCtorEq] at h <;> first | exact h.1.symm | exact h.2.symm

/-- The accumulator of the first loop of `ParseTableEntry` holds the keys matched so far. -/
def Matched (vs : List VarInfo) (pre : List FieldMatch) (acc : List (Str × Value)) : Prop :=
  ∀ n, hasKey n acc = true ↔ ∃ m ∈ pre, ∃ ki ∈ vs, ki.id = m.fieldId ∧ ki.name = n

theorem parseMatchesM_step {x : EntryTexts} {ti : TableInfo} {vs : List VarInfo} (hd : Distinct vs)
    (hm : Maps vs ti.keysById ti.keysByName) : ∀ {ms pre : List FieldMatch} {acc : List (Str × Value)},
    MatchesFit vs pre → Matched vs pre acc →
    (∀ c text, parseMatchesM x ti acc ms = .err c text → MatchesFault x vs (pre ++ ms) c text) ∧
    ∀ keys, parseMatchesM x ti acc ms = .ok keys → MatchesFit vs (pre ++ ms) ∧ Matched vs (pre ++ ms) keys
  | [], pre, acc, h1, h2 => by
    refine ⟨fun c text h => (by cases h), fun keys h => ?_⟩
    cases h
    simpa using ⟨h1, h2⟩
  | m :: ms, pre, acc, h1, h2 => by
    cases hk : parseKeyM x m ti with
    | err c text =>
      unfold parseMatchesM
      rw [hk]
      refine ⟨fun c' text' h => ?_, fun keys h => by cases h⟩
      cases h
      exact .bad h1 (parseKeyM_err hm hk)
    | crash => unfold parseMatchesM; rw [hk]; exact ⟨fun c text h => (by cases h), fun keys h => (by cases h)⟩
    | oof => unfold parseMatchesM; rw [hk]; exact ⟨fun c text h => (by cases h), fun keys h => (by cases h)⟩
    | ok y =>
      obtain ⟨n, v⟩ := y
      obtain ⟨ki, k1, k2, rfl, k3⟩ := (parseKeyM_ok hm).1 hk
      unfold parseMatchesM
      rw [hk, MRes.ok_bind]
      dsimp only
      cases hi : insertNew ki.name v acc with
      | none =>
        refine ⟨fun c text h => ?_, fun keys h => by cases h⟩
        cases h
        have hh : hasKey ki.name acc = true := by
          unfold insertNew at hi
          split at hi
          · assumption
          · cases hi
        obtain ⟨m', hm', ki', k4, k5, k6⟩ := (h2 _).1 hh
        have := byName_unique hd k4 k1 k6
        subst this
        exact .twice h1 k1 k2 k3 ⟨m', hm', k5.symm.trans k2⟩ (idText_iff.2 rfl)
      | some acc' =>
        obtain ⟨hf, rfl⟩ := insertNew_some.1 hi
        have e : pre ++ m :: ms = (pre ++ [m]) ++ ms := by simp
        rw [e]
        have hno : ∀ m' ∈ pre, m'.fieldId ≠ m.fieldId := by
          intro m' hm' e
          have := (h2 ki.name).2 ⟨m', hm', ki, k1, k2.trans e.symm, rfl⟩
          rw [hf] at this
          cases this
        refine parseMatchesM_step hd hm ⟨?_, ?_⟩ ?_
        · intro m' hm'
          rcases List.mem_append.1 hm' with hm' | hm'
          · exact h1.1 m' hm'
          · rw [List.mem_singleton.1 hm']
            exact ⟨ki, k1, k2, v, k3⟩
        · rw [List.map_append, List.nodup_append]
          refine ⟨h1.2, by simp, ?_⟩
          intro a ha b hb
          obtain ⟨m', hm', rfl⟩ := List.mem_map.1 ha
          simp only [List.map_cons, List.map_nil, List.mem_singleton] at hb
          subst hb
          exact hno m' hm'
        · intro n
          rw [hasKey_keys, List.map_cons, List.mem_cons, ← hasKey_keys, h2 n]
          constructor
          · rintro (rfl | ⟨m', hm', h⟩)
            · exact ⟨m, by simp, ki, k1, k2, rfl⟩
            · exact ⟨m', by simp [hm'], h⟩
          · rintro ⟨m', hm', ki', k4, k5, k6⟩
            rcases List.mem_append.1 hm' with hm' | hm'
            · exact .inr ⟨m', hm', ki', k4, k5, k6⟩
            · rw [List.mem_singleton.1 hm'] at k5
              rw [byId_unique hd k1 k4 (k2.trans k5.symm)]
              exact .inl k6.symm

theorem addDefaultsM_err {x : EntryTexts} {c : Code} {text : Str} : ∀ {ks : List (Str × VarInfo)} {acc : List (Str × Value)},
    addDefaultsM x acc ks = .err c text → ∃ k ∈ ks, hasKey k.1 acc = false ∧ defaultValueM x k.2 = .err c text
  | [], acc, h => by cases h
  | (n, ki) :: ks, acc, h => by
    unfold addDefaultsM at h
    by_cases hk : hasKey n acc = true
    · rw [if_pos hk] at h
      obtain ⟨k, h1, h2⟩ := addDefaultsM_err h
      exact ⟨k, by simp [h1], h2⟩
    · rw [if_neg hk, mbind_err] at h
      rcases h with h | ⟨v, hv, h⟩
      · exact ⟨(n, ki), by simp, by simpa using hk, h⟩
      · obtain ⟨k, h1, h2, h3⟩ := addDefaultsM_err h
        refine ⟨k, by simp [h1], ?_, h3⟩
        rw [hasKey_false] at h2 ⊢
        exact fun a ha => h2 a (by simp [ha])

theorem defaultValueM_err {x : EntryTexts} {ki : VarInfo} {c : Code} {text : Str} (h : defaultValueM x ki = .err c text) :
    (∃ w, ki.ty = .exact w ∧ c = .invalidArgument ∧ text = c!"missing exact match key '" ++ ki.name ++ c!"'") ∨
    (MatchKind ki.ty → False) ∧ c = .internal ∧
      text = c!"Key '" ++ ki.name ++ c!"' of invalid match type detected at runtime: " ++ x.type ki.ty := by
  unfold defaultValueM at h
  cases ht : ki.ty <;> rw [ht] at h <;> dsimp only at h
  case exact w => cases h; exact .inl ⟨w, rfl, rfl, rfl⟩
  case range w =>
    rw [mbind_err] at h
    rcases h with h | ⟨_, _, h⟩
    · exact (maxValue_ne_err (ofRes_err h)).elim
    · cases h
  all_goals
    first
      | (cases h; done)
      | (cases h; refine .inr ⟨fun h => ?_, rfl, rfl⟩; cases h)

theorem parseTableEntryM_err {x : EntryTexts} {entry : RtEntry} {ti : TableInfo} {vs : List VarInfo} (hd : Distinct vs)
    (hm : Maps vs ti.keysById ti.keysByName) (hk : ∀ ki ∈ vs, MatchKind ki.ty ∨ ∃ k, ki.ty = .unsupported k) {c : Code}
    {text : Str} (h : parseTableEntryM x entry ti = .err c text) : MatchesFault x vs entry.matches_ c text := by
  unfold parseTableEntryM at h
  have hs := parseMatchesM_step (x := x) hd hm (ms := entry.matches_) (pre := []) (acc := []) ⟨by simp, by simp⟩
    (by intro n; simp [hasKey, lookup])
  rw [mbind_err] at h
  rcases h with h | ⟨keys, hkeys, h⟩
  · exact hs.1 c text h
  · rw [mbind_err] at h
    rcases h with h | ⟨_, _, h⟩
    · obtain ⟨h1, h2⟩ := hs.2 keys hkeys
      rw [List.nil_append] at h1 h2
      obtain ⟨⟨n, ki⟩, h3, h4, h5⟩ := addDefaultsM_err h
      obtain ⟨h6, rfl⟩ := (hm.byName _ _).1 h3
      have hno : ∀ m ∈ entry.matches_, m.fieldId ≠ ki.id := by
        intro m hm' e
        have := (h2 ki.name).2 ⟨m, hm', ki, h6, e.symm, rfl⟩
        rw [h4] at this
        cases this
      rcases defaultValueM_err h5 with ⟨w, hw, rfl, rfl⟩ | ⟨hn, rfl, rfl⟩
      · exact .exact h1 h6 hno hw
      · rcases hk ki h6 with h | ⟨k, hk⟩
        · exact (hn h).elim
        · exact .unsupported h1 h6 hno hk
    · cases h

/-- A faulty entry does not fit. -/
theorem matchesFault_not_fits {x : EntryTexts} {vs : List VarInfo} (hd : Distinct vs) {entry : RtEntry} {c : Code}
    {text : Str} (h : MatchesFault x vs entry.matches_ c text) : ¬ EntryFits vs entry := by
  intro hf
  generalize hms : entry.matches_ = ms at h
  cases h with
  | @bad pre post m _ _ _ hb =>
    have hmem : m ∈ entry.matches_ := by rw [hms]; simp
    obtain ⟨ki, h1, h2, v, h3⟩ := hf.known m hmem
    cases hb with
    | unknown h _ => exact h ki h1 h2
    | empty _ _ h => rcases h with h | h <;> (rw [h] at h3; generalize ki.ty = t at h3; cases h3)
    | kind h4 h5 _ _ h => exact h v (byId_unique hd h4 h1 (h5.trans h2.symm) ▸ h3)
  | @twice pre post m _ _ _ _ _ _ _ h _ =>
    obtain ⟨m', h1, h2⟩ := h
    have := hf.once
    rw [hms, List.map_append, List.nodup_append] at this
    exact this.2.2 m'.fieldId (List.mem_map.2 ⟨m', h1, rfl⟩) m.fieldId (by simp) h2
  | exact _ h1 h2 h3 =>
    rcases hf.complete _ h1 with ⟨m, h4, h5⟩ | ⟨v, h4⟩
    · rw [hms] at h4; exact h2 m h4 h5
    · rw [h3] at h4; cases h4
  | unsupported _ h1 h2 h3 =>
    rcases hf.complete _ h1 with ⟨m, h4, h5⟩ | ⟨v, h4⟩
    · rw [hms] at h4; exact h2 m h4 h5
    · rw [h3] at h4; cases h4

/-! ### Arguments -/

/-- The accumulator of the loop of `ParseAction` holds the parameters given so far. -/
def Given (vs : List VarInfo) (pre : List (Nat × Bytes)) (acc : List (Str × Int)) : Prop :=
  ∀ n, hasKey n acc = true ↔ ∃ p ∈ pre, ∃ pi ∈ vs, pi.id = p.1 ∧ pi.name = n

theorem parseParamsM_step {ai : ActionInfo} {vs : List VarInfo} (hd : Distinct vs)
    (hm : Maps vs ai.paramsById ai.paramsByName) : ∀ {ps pre : List (Nat × Bytes)} {acc : List (Str × Int)},
    ArgsFit vs pre → Given vs pre acc →
    (∃ text, parseParamsM ai acc ps = .err .invalidArgument text ∧ ArgsFault vs (pre ++ ps) text) ∨
    ∃ keys, parseParamsM ai acc ps = .ok keys ∧ ArgsFit vs (pre ++ ps)
  | [], pre, acc, h1, h2 => .inr ⟨acc, rfl, by simpa using h1⟩
  | (id, v) :: ps, pre, acc, h1, h2 => by
    unfold parseParamsM
    cases hl : lookup id ai.paramsById with
    | none =>
      refine .inl ⟨_, rfl, .unknown h1 (fun pi hpi e => ?_) (idText_iff.2 rfl)⟩
      exact lookup_none_iff.1 hl pi ((hm.byId _ _).2 ⟨hpi, e⟩)
    | some pi =>
      obtain ⟨k1, k2⟩ := (hm.byId _ _).1 (lookup_some_mem hl)
      dsimp only
      by_cases hk : hasKey pi.name acc = true
      · rw [if_pos hk]
        obtain ⟨p', hp', pi', k4, k5, k6⟩ := (h2 _).1 hk
        have := byName_unique hd k4 k1 k6
        subst this
        exact .inl ⟨_, rfl, .twice h1 k1 k2 ⟨p', hp', k5.symm.trans k2⟩ (idText_iff.2 rfl)⟩
      · rw [if_neg hk]
        have e : pre ++ (id, v) :: ps = (pre ++ [(id, v)]) ++ ps := by simp
        rw [e]
        refine parseParamsM_step hd hm ⟨?_, ?_⟩ ?_
        · intro p' hp'
          rcases List.mem_append.1 hp' with hp' | hp'
          · exact h1.1 p' hp'
          · rw [List.mem_singleton.1 hp']
            exact ⟨pi, k1, k2⟩
        · rw [List.map_append, List.nodup_append]
          refine ⟨h1.2, by simp, ?_⟩
          intro a ha b hb
          obtain ⟨p', hp', rfl⟩ := List.mem_map.1 ha
          simp only [List.map_cons, List.map_nil, List.mem_singleton] at hb
          subst hb
          intro e
          exact hk ((h2 pi.name).2 ⟨p', hp', pi, k1, k2.trans e.symm, rfl⟩)
        · intro n
          rw [hasKey_keys, List.map_cons, List.mem_cons, ← hasKey_keys, h2 n]
          constructor
          · rintro (rfl | ⟨p', hp', h⟩)
            · exact ⟨(id, v), by simp, pi, k1, k2, rfl⟩
            · exact ⟨p', by simp [hp'], h⟩
          · rintro ⟨p', hp', pi', k4, k5, k6⟩
            rcases List.mem_append.1 hp' with hp' | hp'
            · exact .inr ⟨p', hp', pi', k4, k5, k6⟩
            · rw [List.mem_singleton.1 hp'] at k5
              rw [byId_unique hd k1 k4 (k2.trans k5.symm)]
              exact .inl k6.symm

theorem parseActionM_outcome {a : RtAction} {ai : ActionInfo} {vs : List VarInfo} (hd : Distinct vs)
    (hm : Maps vs ai.paramsById ai.paramsByName) :
    (∃ text, parseActionM a ai = .err .invalidArgument text ∧ ArgsFault vs a.params text) ∨
    ∃ ctx, parseActionM a ai = .ok ctx ∧ ArgsFit vs a.params := by
  unfold parseActionM
  rcases parseParamsM_step hd hm (ps := a.params) (pre := []) (acc := []) ⟨by simp, by simp⟩
    (by intro n; simp [hasKey, lookup]) with ⟨text, h1, h2⟩ | ⟨keys, h1, h2⟩
  · rw [h1]; exact .inl ⟨text, rfl, h2⟩
  · rw [h1]; exact .inr ⟨_, rfl, h2⟩

theorem argsFault_not_fits {vs : List VarInfo} {ps : List (Nat × Bytes)} {text : Str} (h : ArgsFault vs ps text) :
    ¬ ArgsFit vs ps := by
  intro hf
  cases h with
  | @unknown pre post p s _ h _ =>
    obtain ⟨pi, h1, h2⟩ := hf.1 p (by simp)
    exact h pi h1 h2
  | @twice pre post p _ _ _ _ _ h _ =>
    obtain ⟨p', h1, h2⟩ := h
    have := hf.2
    rw [List.map_append, List.nodup_append] at this
    exact this.2.2 p'.1 (List.mem_map.2 ⟨p', h1, rfl⟩) p.1 (by simp) h2

end P4C
