import Verif.Model.Basic

/-
Association lists as maps.
-/

namespace P4C

variable {κ α β : Type} [DecidableEq κ]

theorem lookup_some_mem {k : κ} {a : α} {m : List (κ × α)} (h : lookup k m = some a) : (k, a) ∈ m := by
  induction m with
  | nil => simp [lookup] at h
  | cons p m ih =>
    obtain ⟨k', a'⟩ := p
    simp only [lookup] at h
    split at h
    · rename_i hk; cases h; subst hk; simp
    · exact List.mem_cons_of_mem _ (ih h)

theorem lookup_none_iff {k : κ} {m : List (κ × α)} : lookup k m = none ↔ ∀ a, (k, a) ∉ m := by
  induction m with
  | nil => simp [lookup]
  | cons p m ih =>
    obtain ⟨k', a'⟩ := p
    simp only [lookup]
    split
    · rename_i hk; subst hk
      simp only [reduceCtorEq, false_iff]
      intro h
      exact h a' (by simp)
    · rename_i hk
      rw [ih]
      constructor
      · intro h a ha
        simp only [List.mem_cons, Prod.mk.injEq] at ha
        rcases ha with ⟨rfl, _⟩ | ha
        · exact hk rfl
        · exact h a ha
      · intro h a ha
        exact h a (List.mem_cons_of_mem _ ha)

theorem hasKey_iff {k : κ} {m : List (κ × α)} : hasKey k m = true ↔ ∃ a, (k, a) ∈ m := by
  unfold hasKey
  cases h : lookup k m with
  | none => rw [lookup_none_iff] at h; simpa using h
  | some a => simp; exact ⟨a, lookup_some_mem h⟩

theorem hasKey_false {k : κ} {m : List (κ × α)} : hasKey k m = false ↔ ∀ a, (k, a) ∉ m := by
  rw [← Bool.not_eq_true, hasKey_iff]; simp

theorem hasKey_keys {k : κ} {m : List (κ × α)} : hasKey k m = true ↔ k ∈ m.map Prod.fst := by
  rw [hasKey_iff]; simp

omit [DecidableEq κ] in
theorem nodup_keys_unique {k : κ} {a b : α} {m : List (κ × α)} (hn : (m.map Prod.fst).Nodup)
    (ha : (k, a) ∈ m) (hb : (k, b) ∈ m) : a = b := by
  induction m with
  | nil => simp at ha
  | cons p m ih =>
    simp only [List.map_cons, List.nodup_cons] at hn
    rcases List.mem_cons.1 ha with h | ha'
    · rcases List.mem_cons.1 hb with h' | hb'
      · rw [← h] at h'; cases h'; rfl
      · subst h
        exact absurd (List.mem_map.2 ⟨_, hb', rfl⟩) hn.1
    · rcases List.mem_cons.1 hb with h' | hb'
      · subst h'
        exact absurd (List.mem_map.2 ⟨_, ha', rfl⟩) hn.1
      · exact ih hn.2 ha' hb'

theorem lookup_iff_mem {k : κ} {a : α} {m : List (κ × α)} (hn : (m.map Prod.fst).Nodup) :
    lookup k m = some a ↔ (k, a) ∈ m := by
  constructor
  · exact lookup_some_mem
  · intro h
    cases hl : lookup k m with
    | none => rw [lookup_none_iff] at hl; exact absurd h (hl a)
    | some b => rw [nodup_keys_unique hn h (lookup_some_mem hl)]

/-- Lookup does not depend on the order. -/
theorem lookup_perm {m m' : List (κ × α)} (hp : m.Perm m') (hn : (m.map Prod.fst).Nodup) (k : κ) :
    lookup k m = lookup k m' := by
  have hn' : (m'.map Prod.fst).Nodup := (hp.map Prod.fst).nodup hn
  apply Option.ext
  intro a
  rw [lookup_iff_mem hn, lookup_iff_mem hn']
  exact hp.mem_iff

theorem insertNew_some {k : κ} {a : α} {m m' : List (κ × α)} :
    insertNew k a m = some m' ↔ hasKey k m = false ∧ m' = (k, a) :: m := by
  unfold insertNew
  split
  · rename_i h; simp [h]
  · rename_i h; simp at h; simp [h, eq_comm]

end P4C
