import Verif.Spec.Annotation
import Verif.Proofs.Runes
import Verif.Proofs.NumVal

/-
Extraction of constraints from annotations.
-/

namespace P4C

open Spec

/-! ### Matching -/

theorem mem_lit {l : Str} (h : l.all (fun c => c.toNat < 0x80) = true) {s : Str} {m : Match} :
    m ∈ (Re.lit l).matches s ↔ (∃ r, s = l ++ r) ∧ m = (l.length, []) := by
  rw [(det_lit l).eq, first_lit h]
  by_cases hp : l.isPrefixOf s = true
  · rw [if_pos hp]
    have : l <+: s := List.isPrefixOf_iff_prefix.1 hp
    obtain ⟨r, hr⟩ := this
    simp only [Option.mem_toList, Option.some.injEq]
    exact ⟨fun h => ⟨⟨r, hr.symm⟩, h.symm⟩, fun h => h.2.symm⟩
  · rw [if_neg hp]
    simp only [Option.toList_none, List.not_mem_nil, false_iff]
    rintro ⟨⟨r, hr⟩, _⟩
    exact hp (List.isPrefixOf_iff_prefix.2 ⟨r, hr.symm⟩)

theorem mem_seq {r t : Re} {s : Str} {m : Match} : m ∈ (Re.seq r t).matches s ↔
    ∃ m1 ∈ r.matches s, ∃ m2 ∈ t.matches (s.drop m1.1), m = (m1.1 + m2.1, m1.2 ++ m2.2) := by
  rw [Re.matches]
  simp only [List.mem_flatMap, List.mem_map]
  constructor
  · rintro ⟨m1, h1, m2, h2, rfl⟩
    exact ⟨m1, h1, m2, h2, rfl⟩
  · rintro ⟨m1, h1, m2, h2, rfl⟩
    exact ⟨m1, h1, m2, h2, rfl⟩

theorem mem_grp {g : Grp} {r : Re} {s : Str} {m : Match} : m ∈ (Re.grp g r).matches s ↔
    ∃ m1 ∈ r.matches s, m = (m1.1, (g, s.take m1.1) :: m1.2) := by
  rw [Re.matches]
  simp only [List.mem_map]
  constructor
  · rintro ⟨m1, h1, rfl⟩
    exact ⟨m1, h1, rfl⟩
  · rintro ⟨m1, h1, rfl⟩
    exact ⟨m1, h1, rfl⟩

theorem mem_starNeg {k : Cls} (h : k.Neg) {s : Str} {m : Match} : m ∈ (Re.star k).matches s ↔
    ∃ a b, s = a ++ b ∧ Runes a ∧ (∀ c ∈ a, k.mem c = false) ∧ m = (a.length, []) := by
  rw [Re.matches]
  have key : ∀ (fuel : Nat) (s : Str) (n : Nat), (n ∈ starLens k fuel s → ∃ a b, s = a ++ b ∧ Runes a ∧
      (∀ c ∈ a, k.mem c = false) ∧ n = a.length) := by
    intro fuel
    induction fuel with
    | zero =>
      intro s n hn
      simp only [starLens, List.mem_singleton] at hn
      subst hn
      exact ⟨[], s, rfl, .nil, nofun, rfl⟩
    | succ fuel ih =>
      intro s n hn
      unfold starLens at hn
      cases hl : k.len s with
      | none =>
        rw [hl] at hn
        simp only [List.mem_singleton] at hn
        subst hn
        exact ⟨[], s, rfl, .nil, nofun, rfl⟩
      | some j =>
        rw [hl] at hn
        simp only [List.mem_append, List.mem_map, List.mem_singleton] at hn
        rcases hn with ⟨i, hi, rfl⟩ | rfl
        · obtain ⟨r, t, rfl, hr, hj, hm⟩ := h.len_iff.1 hl
          subst hj
          rw [List.drop_left] at hi
          obtain ⟨a, b, rfl, ha, hma, rfl⟩ := ih t i hi
          refine ⟨r ++ a, b, by rw [List.append_assoc], .cons hr ha, ?_, by rw [List.length_append]⟩
          intro c hc
          rcases List.mem_append.1 hc with hc | hc
          · exact hm c hc
          · exact hma c hc
        · exact ⟨[], s, rfl, .nil, nofun, rfl⟩
  have key2 : ∀ (a : Str), Runes a → (∀ c ∈ a, k.mem c = false) → ∀ (b : Str) (fuel : Nat), (a ++ b).length ≤ fuel →
      a.length ∈ starLens k fuel (a ++ b) := by
    intro a ha
    induction ha with
    | nil =>
      intro _ b fuel _
      cases fuel with
      | zero => simp [starLens]
      | succ fuel =>
        unfold starLens
        cases k.len ([] ++ b) <;> simp
    | cons hr ha ih =>
      rename_i r a
      intro hm b fuel hf
      have hl : k.len (r ++ a ++ b) = some r.length :=
        h.len_iff.2 ⟨r, a ++ b, by rw [List.append_assoc], hr, rfl, fun c hc => hm c (List.mem_append_left _ hc)⟩
      have hpos := Rune.length_pos hr
      cases fuel with
      | zero => simp only [List.length_append] at hf; omega
      | succ fuel =>
        unfold starLens
        rw [hl]
        dsimp only
        rw [List.append_assoc, List.drop_left]
        refine List.mem_append_left _ (List.mem_map.2 ⟨a.length, ?_, by rw [List.length_append]⟩)
        refine ih (fun c hc => hm c (List.mem_append_right _ hc)) b fuel ?_
        simp only [List.length_append] at hf ⊢
        omega
  simp only [List.mem_map]
  constructor
  · rintro ⟨n, hn, rfl⟩
    obtain ⟨a, b, h1, h2, h3, rfl⟩ := key _ _ _ hn
    exact ⟨a, b, h1, h2, h3, rfl⟩
  · rintro ⟨a, b, rfl, h2, h3, rfl⟩
    exact ⟨a.length, key2 a h2 h3 b _ (Nat.le_refl _), rfl⟩

theorem mem_starAscii {k : Cls} (h : k.Ascii) {s : Str} {m : Match} : m ∈ (Re.star k).matches s ↔
    ∃ a b, s = a ++ b ∧ (∀ c ∈ a, k.mem c = true) ∧ m = (a.length, []) := by
  rw [Re.matches]
  have key : ∀ (fuel : Nat) (s : Str) (n : Nat), (n ∈ starLens k fuel s → ∃ a b, s = a ++ b ∧
      (∀ c ∈ a, k.mem c = true) ∧ n = a.length) := by
    intro fuel
    induction fuel with
    | zero =>
      intro s n hn
      simp only [starLens, List.mem_singleton] at hn
      subst hn
      exact ⟨[], s, rfl, nofun, rfl⟩
    | succ fuel ih =>
      intro s n hn
      unfold starLens at hn
      cases s with
      | nil =>
        simp only [Cls.len, List.mem_singleton] at hn
        subst hn
        exact ⟨[], [], rfl, nofun, rfl⟩
      | cons c cs =>
        rw [h.len] at hn
        by_cases hc : k.mem c = true
        · rw [if_pos hc] at hn
          simp only [List.mem_append, List.mem_map, List.mem_singleton] at hn
          rcases hn with ⟨i, hi, rfl⟩ | rfl
          · rw [List.drop_one, List.tail_cons] at hi
            obtain ⟨a, b, rfl, hma, rfl⟩ := ih cs i hi
            refine ⟨c :: a, b, rfl, ?_, by rw [List.length_cons, Nat.add_comm]⟩
            intro d hd
            rcases List.mem_cons.1 hd with rfl | hd
            · exact hc
            · exact hma d hd
          · exact ⟨[], _, rfl, nofun, rfl⟩
        · rw [if_neg hc] at hn
          simp only [List.mem_singleton] at hn
          subst hn
          exact ⟨[], _, rfl, nofun, rfl⟩
  have key2 : ∀ (a : Str), (∀ c ∈ a, k.mem c = true) → ∀ (b : Str) (fuel : Nat), (a ++ b).length ≤ fuel →
      a.length ∈ starLens k fuel (a ++ b) := by
    intro a
    induction a with
    | nil =>
      intro _ b fuel _
      cases fuel with
      | zero => simp [starLens]
      | succ fuel =>
        unfold starLens
        cases k.len ([] ++ b) <;> simp
    | cons c a ih =>
      intro hm b fuel hf
      cases fuel with
      | zero => simp at hf
      | succ fuel =>
        unfold starLens
        rw [List.cons_append, h.len, if_pos (hm c List.mem_cons_self)]
        dsimp only
        rw [List.drop_one, List.tail_cons]
        refine List.mem_append_left _ (List.mem_map.2 ⟨a.length, ?_, by rw [List.length_cons, Nat.add_comm]⟩)
        refine ih (fun c hc => hm c (List.mem_cons_of_mem _ hc)) b fuel ?_
        simp only [List.length_append, List.length_cons] at hf ⊢
        omega
  simp only [List.mem_map]
  constructor
  · rintro ⟨n, hn, rfl⟩
    obtain ⟨a, b, h1, h3, rfl⟩ := key _ _ _ hn
    exact ⟨a, b, h1, h3, rfl⟩
  · rintro ⟨a, b, rfl, h3, rfl⟩
    exact ⟨a.length, key2 a h3 b _ (Nat.le_refl _), rfl⟩

theorem first_mem {r : Re} {s : Str} {m : Match} (h : r.first s = some m) : m ∈ r.matches s :=
  List.mem_of_mem_head? h

theorem first_none {r : Re} {s : Str} : r.first s = none ↔ ∀ m, m ∉ r.matches s := by
  unfold Re.first
  rw [List.head?_eq_none_iff, List.eq_nil_iff_forall_not_mem]

/-! ### Annotations -/

theorem mem_file {a : Str} {m : Match} (h : m ∈ fileAnnotation.matches a) : FileAnn a (capture .file m) := by
  unfold fileAnnotation at h
  obtain ⟨m1, h1, m2, h2, rfl⟩ := mem_seq.1 h
  obtain ⟨⟨r, rfl⟩, rfl⟩ := (mem_lit (by decide)).1 h1
  dsimp only at h2
  rw [List.drop_left] at h2
  obtain ⟨m3, h3, m4, h4, rfl⟩ := mem_seq.1 h2
  obtain ⟨m5, h5, rfl⟩ := mem_grp.1 h3
  obtain ⟨f, b, rfl, hf, hm, rfl⟩ := (mem_starNeg (noneOf_neg (by decide))).1 h5
  dsimp only at h4
  rw [List.drop_left] at h4
  obtain ⟨⟨rest, rfl⟩, rfl⟩ := (mem_lit (by decide)).1 h4
  have hcap : capture .file (c!"@file(\"".length + (f.length + c!"\")".length),
      [] ++ ((Grp.file, (f ++ (c!"\")" ++ rest)).take f.length) :: [] ++ [])) = f := by
    unfold capture
    rw [List.take_left]
    rfl
  dsimp only
  have hq : '"' ∉ f := by
    intro hc
    have := hm _ hc
    simp [Re.noneOf] at this
  have h7 := FileAnn.mk rest hf hq
  rw [List.append_assoc, List.append_assoc] at h7
  rw [hcap]
  exact h7

theorem seq_some {r t : Re} {s : Str} {m1 m2 : Match} (h1 : m1 ∈ r.matches s)
    (h2 : m2 ∈ t.matches (s.drop m1.1)) : ∃ m, m ∈ (Re.seq r t).matches s :=
  ⟨_, mem_seq.2 ⟨m1, h1, m2, h2, rfl⟩⟩

theorem grp_some {g : Grp} {r : Re} {s : Str} {m1 : Match} (h1 : m1 ∈ r.matches s) :
    (m1.1, (g, s.take m1.1) :: m1.2) ∈ (Re.grp g r).matches s :=
  mem_grp.2 ⟨m1, h1, rfl⟩

theorem fileAnn_mem {a f : Str} (h : FileAnn a f) : ∃ m, m ∈ fileAnnotation.matches a := by
  cases h with
  | mk rest hf hq =>
    unfold fileAnnotation
    have e0 : c!"@file(\"" ++ f ++ c!"\")" ++ rest = c!"@file(\"" ++ (f ++ (c!"\")" ++ rest)) := by
      simp only [List.append_assoc]
    rw [e0]
    have h1 : (c!"@file(\"".length, []) ∈ (Re.lit c!"@file(\"").matches (c!"@file(\"" ++ (f ++ (c!"\")" ++ rest))) :=
      (mem_lit (by decide)).2 ⟨⟨_, rfl⟩, rfl⟩
    have h2 : (f.length, []) ∈ (Re.star (Re.noneOf c!"\"")).matches (f ++ (c!"\")" ++ rest)) :=
      (mem_starNeg (noneOf_neg (by decide))).2 ⟨f, _, rfl, hf, (by
        intro c hc
        simp only [Re.noneOf, List.contains_eq_mem, List.mem_singleton, decide_eq_false_iff_not]
        rintro rfl
        exact hq hc), rfl⟩
    have h3 : (c!"\")".length, []) ∈ (Re.lit c!"\")").matches ((f ++ (c!"\")" ++ rest)).drop f.length) := by
      rw [List.drop_left]
      exact (mem_lit (by decide)).2 ⟨⟨_, rfl⟩, rfl⟩
    obtain ⟨m, hm⟩ := seq_some (grp_some (g := .file) h2) h3
    refine seq_some h1 (m2 := m) ?_
    dsimp only
    rw [List.drop_left]
    exact hm

/-- Equal texts split at the first occurrence of a character are equal in parts. -/
theorem split_unique {q : Char} : ∀ {a b u v : Str}, q ∉ a → q ∉ b → a ++ q :: u = b ++ q :: v → a = b ∧ u = v := by
  intro a
  induction a with
  | nil =>
    intro b u v _ hb h
    cases b with
    | nil =>
      injection h with _ h
      exact ⟨rfl, h⟩
    | cons c b =>
      injection h with h _
      exact (hb (h ▸ List.mem_cons_self)).elim
  | cons x a ih =>
    intro b u v ha hb h
    cases b with
    | nil =>
      injection h with h _
      exact (ha (h ▸ List.mem_cons_self)).elim
    | cons c b =>
      injection h with h1 h2
      obtain ⟨h3, h4⟩ := ih (fun h => ha (List.mem_cons_of_mem _ h)) (fun h => hb (List.mem_cons_of_mem _ h)) h2
      exact ⟨by rw [h1, h3], h4⟩

theorem fileAnn_unique {a f f' : Str} (h : FileAnn a f) (h' : FileAnn a f') : f = f' := by
  generalize hb : a = b at h'
  cases h with
  | mk rest hf hq =>
    cases h' with
    | mk rest' hf' hq' =>
      simp only [List.append_assoc] at hb
      have := List.append_cancel_left hb
      exact (split_unique hq hq' this).1

theorem consumeFile_iff {a f : Str} : consumeFile a = some f ↔ FileAnn a f := by
  unfold consumeFile
  cases h : fileAnnotation.first a with
  | none =>
    simp only [Option.map_none, reduceCtorEq, false_iff]
    intro hf
    obtain ⟨m, hm⟩ := fileAnn_mem hf
    exact first_none.1 h m hm
  | some m =>
    have h1 := mem_file (first_mem h)
    simp only [Option.map_some, Option.some.injEq]
    exact ⟨fun he => he ▸ h1, fun h2 => fileAnn_unique h1 h2⟩

theorem consumeFile_none {a : Str} : consumeFile a = none ↔ ∀ f, ¬ FileAnn a f := by
  constructor
  · intro h f hf
    rw [consumeFile_iff.2 hf] at h
    cases h
  · intro h
    cases h1 : consumeFile a with
    | none => rfl
    | some f => exact (h f (consumeFile_iff.1 h1)).elim

/-- The digits of a line annotation, without bound on the number. -/
inductive DigitsAnn : Str → Str → Prop where
  | mk {ds : Str} (rest : Str) : ds ≠ [] → (∀ c ∈ ds, isDec c = true) → DigitsAnn (c!"@line(" ++ ds ++ c!")" ++ rest) ds

theorem dec_ascii : (⟨false, isDec⟩ : Cls).Ascii :=
  ⟨rfl, fun c hc => by
    simp only [isDec, inRange, Bool.and_eq_true, decide_eq_true_eq] at hc
    have : '9'.toNat = 57 := rfl
    omega⟩

theorem mem_line {a : Str} {m : Match} (h : m ∈ lineAnnotation.matches a) : DigitsAnn a (capture .line m) := by
  unfold lineAnnotation at h
  obtain ⟨m1, h1, m2, h2, rfl⟩ := mem_seq.1 h
  obtain ⟨⟨r, rfl⟩, rfl⟩ := (mem_lit (by decide)).1 h1
  dsimp only at h2
  rw [List.drop_left] at h2
  obtain ⟨m3, h3, m4, h4, rfl⟩ := mem_seq.1 h2
  obtain ⟨m5, h5, rfl⟩ := mem_grp.1 h3
  obtain ⟨m6, h6, m7, h7, rfl⟩ := mem_seq.1 h5
  rw [Re.matches] at h6
  cases r with
  | nil => simp [Cls.len] at h6
  | cons c r =>
    rw [dec_ascii.len] at h6
    split at h6
    · rename_i hc
      have hc' : isDec c = true := by
        by_cases hd : isDec c = true
        · exact hd
        · simp [hd] at hc
      rw [if_pos hc'] at hc
      cases hc
      simp only [List.mem_singleton] at h6
      subst h6
      dsimp only at h7
      rw [List.drop_one, List.tail_cons] at h7
      obtain ⟨d, b, rfl, hd, rfl⟩ := (mem_starAscii dec_ascii).1 h7
      dsimp only at h4
      have e1 : ((c :: (d ++ b)).drop (1 + d.length)) = b := by
        rw [Nat.add_comm, List.drop_succ_cons, List.drop_left]
      rw [e1] at h4
      obtain ⟨⟨rest, rfl⟩, rfl⟩ := (mem_lit (by decide)).1 h4
      have e2 : ((c :: (d ++ (c!")" ++ rest))).take (1 + d.length)) = c :: d := by
        rw [Nat.add_comm, List.take_succ_cons, List.take_left]
      have hcap : capture .line (c!"@line(".length + (1 + d.length + c!")".length),
          [] ++ ((Grp.line, (c :: (d ++ (c!")" ++ rest))).take (1 + d.length)) :: ([] ++ []) ++ [])) = c :: d := by
        unfold capture
        rw [e2]
        rfl
      dsimp only
      rw [hcap]
      have h8 := DigitsAnn.mk (ds := c :: d) rest nofun (by
        intro x hx
        rcases List.mem_cons.1 hx with rfl | hx
        · exact hc'
        · exact hd x hx)
      simp only [List.append_assoc] at h8
      exact h8
    · cases h6

theorem digitsAnn_mem {a ds : Str} (h : DigitsAnn a ds) : ∃ m, m ∈ lineAnnotation.matches a := by
  cases h with
  | mk rest hne hd =>
    cases ds with
    | nil => exact (hne rfl).elim
    | cons c d =>
      unfold lineAnnotation
      have e0 : c!"@line(" ++ (c :: d) ++ c!")" ++ rest = c!"@line(" ++ (c :: (d ++ (c!")" ++ rest))) := by
        simp only [List.append_assoc, List.cons_append]
      rw [e0]
      have h1 : (c!"@line(".length, []) ∈ (Re.lit c!"@line(").matches (c!"@line(" ++ (c :: (d ++ (c!")" ++ rest)))) :=
        (mem_lit (by decide)).2 ⟨⟨_, rfl⟩, rfl⟩
      have h2 : (1, []) ∈ (Re.cls ⟨false, isDec⟩).matches (c :: (d ++ (c!")" ++ rest))) := by
        rw [Re.matches, dec_ascii.len, if_pos (hd c List.mem_cons_self)]
        exact List.mem_singleton.2 rfl
      have h3 : (d.length, []) ∈ (Re.star ⟨false, isDec⟩).matches ((c :: (d ++ (c!")" ++ rest))).drop 1) :=
        (mem_starAscii dec_ascii).2 ⟨d, _, rfl, fun x hx => hd x (List.mem_cons_of_mem _ hx), rfl⟩
      have h4 : (c!")".length, []) ∈ (Re.lit c!")").matches ((c :: (d ++ (c!")" ++ rest))).drop (1 + d.length)) := by
        rw [Nat.add_comm, List.drop_succ_cons, List.drop_left]
        exact (mem_lit (by decide)).2 ⟨⟨_, rfl⟩, rfl⟩
      have h5 : (1 + d.length, [] ++ []) ∈ (Re.plus ⟨false, isDec⟩).matches (c :: (d ++ (c!")" ++ rest))) :=
        mem_seq.2 ⟨_, h2, _, h3, rfl⟩
      obtain ⟨m, hm⟩ := seq_some (grp_some (g := .line) h5) h4
      refine seq_some h1 (m2 := m) ?_
      dsimp only
      rw [List.drop_left]
      exact hm

theorem digitsAnn_unique {a f f' : Str} (h : DigitsAnn a f) (h' : DigitsAnn a f') : f = f' := by
  generalize hb : a = b at h'
  cases h with
  | mk rest hf hq =>
    cases h' with
    | mk rest' hf' hq' =>
      simp only [List.append_assoc] at hb
      have := List.append_cancel_left hb
      have hp : ∀ {ds : Str}, (∀ c ∈ ds, isDec c = true) → ')' ∉ ds := by
        intro ds h hc
        have := h _ hc
        revert this
        decide
      exact (split_unique (hp hq) (hp hq') this).1

theorem isDec_digits {c : Char} : isDec c = true ↔ ∃ d, (c, d) ∈ digits ∧ d < 10 := by
  constructor
  · intro h
    simp only [isDec, inRange, Bool.and_eq_true, decide_eq_true_eq] at h
    have h0 : '0'.toNat = 48 := rfl
    have h9 : '9'.toNat = 57 := rfl
    have : c = Char.ofNat c.toNat := (Char.ofNat_toNat c).symm
    have h1 : c.toNat = 48 ∨ c.toNat = 49 ∨ c.toNat = 50 ∨ c.toNat = 51 ∨ c.toNat = 52 ∨ c.toNat = 53 ∨ c.toNat = 54 ∨
        c.toNat = 55 ∨ c.toNat = 56 ∨ c.toNat = 57 := by omega
    rcases h1 with h1 | h1 | h1 | h1 | h1 | h1 | h1 | h1 | h1 | h1 <;> rw [h1] at this <;> subst this
    · exact ⟨0, by decide, by decide⟩
    · exact ⟨1, by decide, by decide⟩
    · exact ⟨2, by decide, by decide⟩
    · exact ⟨3, by decide, by decide⟩
    · exact ⟨4, by decide, by decide⟩
    · exact ⟨5, by decide, by decide⟩
    · exact ⟨6, by decide, by decide⟩
    · exact ⟨7, by decide, by decide⟩
    · exact ⟨8, by decide, by decide⟩
    · exact ⟨9, by decide, by decide⟩
  · rintro ⟨d, h, hd⟩
    have : ∀ p ∈ digits, p.2 < 10 → isDec p.1 = true := by decide
    exact this _ h hd

theorem numVal_dec {ds : Str} : (∃ n, NumVal 10 ds n) ↔ ds ≠ [] ∧ ∀ c ∈ ds, isDec c = true := by
  constructor
  · rintro ⟨n, h⟩
    exact ⟨h.ne_nil, fun c hc => isDec_digits.2 (h.mem c hc)⟩
  · rintro ⟨h1, h2⟩
    exact numVal_exists h1 fun c hc => isDec_digits.1 (h2 c hc)

theorem parseInt32_val {ds : Str} {n : Nat} (h : NumVal 10 ds n) {i : Int} :
    parseInt32 ds = some i ↔ i = n ∧ n ≤ 2147483647 := by
  unfold parseInt32
  rw [h.setStr]
  dsimp only
  split
  · constructor
    · intro h
      injection h with h
      exact ⟨h.symm, by omega⟩
    · rintro ⟨rfl, _⟩
      rfl
  · constructor
    · intro h
      cases h
    · rintro ⟨_, _⟩
      omega

theorem lineAnn_digits {a : Str} {n : Nat} : LineAnn a n ↔ ∃ ds, DigitsAnn a ds ∧ NumVal 10 ds n ∧ n ≤ 2147483647 := by
  constructor
  · intro h
    cases h with
    | mk rest hv hn =>
      have := numVal_dec.1 ⟨n, hv⟩
      exact ⟨_, .mk rest this.1 this.2, hv, hn⟩
  · rintro ⟨ds, h, hv, hn⟩
    cases h with
    | mk rest _ _ => exact .mk rest hv hn

theorem consumeLine_iff {a : Str} {i : Int} : consumeLine a = some i ↔ ∃ n : Nat, i = n ∧ LineAnn a n := by
  unfold consumeLine
  cases h : lineAnnotation.first a with
  | none =>
    simp only [Option.bind_none, reduceCtorEq, false_iff]
    rintro ⟨n, _, hl⟩
    obtain ⟨ds, hd, _⟩ := lineAnn_digits.1 hl
    obtain ⟨m, hm⟩ := digitsAnn_mem hd
    exact first_none.1 h m hm
  | some m =>
    have h1 := mem_line (first_mem h)
    simp only [Option.bind_some]
    have h2 : ∃ n, NumVal 10 (capture .line m) n := by
      generalize capture .line m = ds at h1
      cases h1 with
      | mk rest hne hd => exact numVal_dec.2 ⟨hne, hd⟩
    obtain ⟨n, hn⟩ := h2
    rw [parseInt32_val hn]
    constructor
    · rintro ⟨rfl, hle⟩
      exact ⟨n, rfl, lineAnn_digits.2 ⟨_, h1, hn, hle⟩⟩
    · rintro ⟨n', rfl, hl⟩
      obtain ⟨ds, hd, hv, hle⟩ := lineAnn_digits.1 hl
      rw [digitsAnn_unique hd h1] at hv
      rw [numVal_unique hv hn] at hle ⊢
      exact ⟨rfl, hle⟩

theorem consumeLine_none {a : Str} : consumeLine a = none ↔ ∀ n, ¬ LineAnn a n := by
  constructor
  · intro h n hn
    rw [consumeLine_iff.2 ⟨n, rfl, hn⟩] at h
    cases h
  · intro h
    cases h1 : consumeLine a with
    | none => rfl
    | some i =>
      obtain ⟨n, _, hn⟩ := consumeLine_iff.1 h1
      exact (h n hn).elim

theorem restriction_first {k : ConstraintKind} {a : Str} :
    (constraintAnnotation k).first a = if (restriction k).isPrefixOf a then some ((restriction k).length, []) else none := by
  cases k
  · exact first_lit (l := c!"@entry_restriction") (by decide) a
  · exact first_lit (l := c!"@action_restriction") (by decide) a

theorem restriction_not {k : ConstraintKind} {body : Str} :
    (∀ f, ¬ FileAnn (restriction k ++ body) f) ∧ (∀ n, ¬ LineAnn (restriction k ++ body) n) := by
  constructor
  · intro f h
    generalize hb : restriction k ++ body = b at h
    cases h with
    | mk rest _ _ => cases k <;> (injection hb with _ hb; injection hb with hb _; revert hb; decide)
  · intro f h
    generalize hb : restriction k ++ body = b at h
    cases h with
    | mk rest _ _ => cases k <;> (injection hb with _ hb; injection hb with hb _; revert hb; decide)

/-! ### The loop -/

/-- One annotation that is not the restriction. -/
def annStep (st : AnnState) (a : Str) : AnnState :=
  match consumeFile a with
  | some f => { st with file := f }
  | none =>
    match consumeLine a with
    | some n => { st with line := n }
    | none => st

theorem annLoop_cons {k : ConstraintKind} {st : AnnState} {a : Str} {as : List Str} (h : ¬ restriction k <+: a) :
    annLoop k st (a :: as) = annLoop k (annStep st a) as := by
  rw [annLoop]
  unfold annStep
  cases consumeFile a with
  | some f => rfl
  | none =>
    dsimp only
    cases consumeLine a with
    | some n => rfl
    | none =>
      dsimp only
      rw [restriction_first, if_neg (fun hp => h (List.isPrefixOf_iff_prefix.1 hp))]

theorem annLoop_pre {k : ConstraintKind} {pre : List Str} (h : ∀ a ∈ pre, ¬ restriction k <+: a) {st : AnnState}
    {as : List Str} : annLoop k st (pre ++ as) = annLoop k (pre.foldl annStep st) as := by
  induction pre generalizing st with
  | nil => rfl
  | cons a pre ih =>
    rw [List.cons_append, annLoop_cons (h a List.mem_cons_self), List.foldl_cons]
    exact ih fun b hb => h b (List.mem_cons_of_mem _ hb)

theorem annLoop_hit {k : ConstraintKind} {st : AnnState} {body : Str} {post : List Str} :
    annLoop k st ((restriction k ++ body) :: post) = (st, cstr body) := by
  rw [annLoop, consumeFile_none.2 restriction_not.1]
  dsimp only
  rw [consumeLine_none.2 restriction_not.2]
  dsimp only
  rw [restriction_first, if_pos (List.isPrefixOf_iff_prefix.2 ⟨body, rfl⟩)]
  dsimp only
  rw [List.drop_left]

theorem fileAnn_not_line {a f : Str} (h : FileAnn a f) (n : Nat) : ¬ LineAnn a n := by
  intro h'
  generalize hb : a = b at h'
  cases h with
  | mk rest _ _ =>
    cases h' with
    | mk rest' _ _ =>
      injection hb with _ hb
      injection hb with hb _
      revert hb
      decide

theorem position_fold {pre : List Str} {f : Str} {n : Nat} (h : Position pre f n) :
    pre.foldl annStep {} = ⟨f, n⟩ := by
  induction h with
  | start => rfl
  | file hp hf ih =>
    rw [List.foldl_append, ih, List.foldl_cons, List.foldl_nil]
    unfold annStep
    rw [consumeFile_iff.2 hf]
  | line hp hl ih =>
    rw [List.foldl_append, ih, List.foldl_cons, List.foldl_nil]
    unfold annStep
    rw [consumeFile_none.2 (fun f hf => fileAnn_not_line hf _ hl), consumeLine_iff.2 ⟨_, rfl, hl⟩]
  | other hp hf hl ih =>
    rw [List.foldl_append, ih, List.foldl_cons, List.foldl_nil]
    unfold annStep
    rw [consumeFile_none.2 hf, consumeLine_none.2 hl]

theorem position_snoc {pre : List Str} {f : Str} {n : Nat} (h : Position pre f n) (a : Str) :
    ∃ f' n', Position (pre ++ [a]) f' n' := by
  cases hf : consumeFile a with
  | some f' => exact ⟨_, _, .file h (consumeFile_iff.1 hf)⟩
  | none =>
    cases hl : consumeLine a with
    | some i =>
      obtain ⟨n', _, hl⟩ := consumeLine_iff.1 hl
      exact ⟨_, _, .line h hl⟩
    | none => exact ⟨_, _, .other h (consumeFile_none.1 hf) (consumeLine_none.1 hl)⟩

theorem position_append {as : List Str} : ∀ {pre : List Str} {f : Str} {n : Nat}, Position pre f n →
    ∃ f' n', Position (pre ++ as) f' n' := by
  induction as with
  | nil =>
    intro pre f n h
    exact ⟨f, n, by rw [List.append_nil]; exact h⟩
  | cons a as ih =>
    intro pre f n h
    obtain ⟨f', n', h'⟩ := position_snoc h a
    have := ih h'
    rw [List.append_assoc] at this
    exact this

theorem position_exists (pre : List Str) : ∃ f n, Position pre f n := position_append (as := pre) .start

theorem position_unique {pre : List Str} {f f' : Str} {n n' : Nat} (h : Position pre f n) (h' : Position pre f' n') :
    f = f' ∧ n = n' := by
  have := (position_fold h).symm.trans (position_fold h')
  injection this with h1 h2
  exact ⟨h1, by omega⟩

/-! ### Quotation marks -/

theorem replaceQuotes_sep (s : Str) : replaceQuotes (c!"\" \"" ++ s) = '\n' :: replaceQuotes s := by
  change replaceQuotes ('"' :: ' ' :: '"' :: s) = _
  rw [replaceQuotes]

theorem replaceQuotes_cons {c : Char} (h : c ≠ '"') (s : Str) : replaceQuotes (c :: s) = c :: replaceQuotes s := by
  rw [replaceQuotes]
  rintro cs rfl
  exact fun _ => h rfl

theorem replaceQuotes_part {p : Str} (h : '"' ∉ p) (s : Str) : replaceQuotes (p ++ s) = p ++ replaceQuotes s := by
  induction p with
  | nil => rfl
  | cons c p ih =>
    rw [List.cons_append, replaceQuotes_cons (fun hc => h (hc ▸ List.mem_cons_self)),
      ih fun hc => h (List.mem_cons_of_mem _ hc)]
    rfl

theorem join_cons {sep s t : Str} {ss : List Str} : join sep (s :: t :: ss) = s ++ sep ++ join sep (t :: ss) := rfl

theorem replaceQuotes_join {parts : List Str} (h : ∀ s ∈ parts, '"' ∉ s) :
    replaceQuotes (join c!"\" \"" parts) = join c!"\n" parts := by
  induction parts with
  | nil => rfl
  | cons s ss ih =>
    cases ss with
    | nil =>
      have := replaceQuotes_part (h s List.mem_cons_self) []
      rw [List.append_nil] at this
      change replaceQuotes s = s
      rw [this, replaceQuotes, List.append_nil]
    | cons t ss =>
      rw [join_cons, join_cons, List.append_assoc, replaceQuotes_part (h s List.mem_cons_self), replaceQuotes_sep,
        ih fun x hx => h x (List.mem_cons_of_mem _ hx), List.append_assoc]
      rfl

theorem join_noQuote {parts : List Str} (h : ∀ s ∈ parts, '"' ∉ s) : '"' ∉ join c!"\n" parts := by
  induction parts with
  | nil => nofun
  | cons s ss ih =>
    cases ss with
    | nil => exact h s List.mem_cons_self
    | cons t ss =>
      rw [join_cons]
      intro hc
      rcases List.mem_append.1 hc with hc | hc
      · rcases List.mem_append.1 hc with hc | hc
        · exact h s List.mem_cons_self hc
        · revert hc
          decide
      · exact ih (fun x hx => h x (List.mem_cons_of_mem _ hx)) hc

theorem replaceQuotes_parts : ∀ (s : Str), '"' ∉ replaceQuotes s →
    ∃ parts, parts ≠ [] ∧ (∀ p ∈ parts, '"' ∉ p) ∧ s = join c!"\" \"" parts := by
  intro s
  induction s using replaceQuotes.induct with
  | case1 cs ih =>
    intro h
    rw [replaceQuotes] at h
    obtain ⟨parts, hne, hq, rfl⟩ := ih fun hc => h (List.mem_cons_of_mem _ hc)
    cases parts with
    | nil => exact (hne rfl).elim
    | cons p ps =>
      refine ⟨[] :: p :: ps, nofun, ?_, rfl⟩
      intro x hx
      rcases List.mem_cons.1 hx with rfl | hx
      · nofun
      · exact hq x hx
  | case2 c cs hnot ih =>
    intro h
    rw [replaceQuotes] at h
    · obtain ⟨parts, hne, hq, rfl⟩ := ih fun hc => h (List.mem_cons_of_mem _ hc)
      have hc : c ≠ '"' := fun hc => h (hc ▸ List.mem_cons_self)
      cases parts with
      | nil => exact (hne rfl).elim
      | cons p ps =>
        refine ⟨(c :: p) :: ps, nofun, ?_, ?_⟩
        · intro x hx
          rcases List.mem_cons.1 hx with rfl | hx
          · intro hm
            rcases List.mem_cons.1 hm with hm | hm
            · exact hc hm.symm
            · exact hq p List.mem_cons_self hm
          · exact hq x (List.mem_cons_of_mem _ hx)
        · cases ps with
          | nil => rfl
          | cons q ps => rfl
    · exact hnot
  | case3 =>
    intro _
    exact ⟨[[]], nofun, by intro p hp; rw [List.mem_singleton.1 hp]; nofun, rfl⟩

/-! ### Extraction -/

theorem consumePrefix_iff {p s t : Str} : consumePrefix p s = some t ↔ s = p ++ t := by
  unfold consumePrefix
  split
  · rename_i h
    obtain ⟨r, rfl⟩ := List.isPrefixOf_iff_prefix.1 h
    rw [List.drop_left]
    constructor
    · intro h
      injection h with h
      rw [h]
    · intro h
      rw [List.append_cancel_left h]
  · rename_i h
    constructor
    · intro h
      cases h
    · rintro rfl
      exact (h (List.isPrefixOf_iff_prefix.2 ⟨t, rfl⟩)).elim

theorem consumeSuffix_iff {p s t : Str} : consumeSuffix p s = some t ↔ s = t ++ p := by
  unfold consumeSuffix
  split
  · rename_i h
    obtain ⟨r, rfl⟩ := List.isSuffixOf_iff_suffix.1 h
    rw [List.length_append, Nat.add_sub_cancel, List.take_left]
    constructor
    · intro h
      injection h with h
      rw [h]
    · intro h
      rw [List.append_cancel_right h]
  · rename_i h
    constructor
    · intro h
      cases h
    · rintro rfl
      exact (h (List.isSuffixOf_iff_suffix.2 ⟨t, rfl⟩)).elim

theorem constraintLoc_eq (k : ConstraintKind) (name file : Str) (line : Nat) :
    constraintLoc k name ⟨file, line⟩ = location k name file line := by
  unfold constraintLoc location
  by_cases h : file = []
  · rw [if_pos h, if_neg (fun hn => hn h)]
    cases k <;> rfl
  · rw [if_neg h, if_pos h]

theorem extract_none {k : ConstraintKind} {p : Preamble} (h : ∀ a ∈ p.annotations, ¬ restriction k <+: a) :
    extractConstraint k p = .ok none := by
  have h1 := annLoop_pre h (st := {}) (as := [])
  rw [List.append_nil] at h1
  unfold extractConstraint
  rw [h1]
  rfl

theorem extract_at {k : ConstraintKind} {p : Preamble} {pre post : List Str} {body f : Str} {n : Nat}
    (ha : p.annotations = pre ++ (restriction k ++ body) :: post) (hpre : ∀ a ∈ pre, ¬ restriction k <+: a)
    (hp : Position pre f n) :
    (cstr body = [] → extractConstraint k p = .ok none) ∧
    (cstr body ≠ [] → (∀ parts, Quoted (cstr body) parts →
        extractConstraint k p = .ok (some ⟨join c!"\n" parts, location k p.name f n⟩)) ∧
      ((∀ parts, ¬ Quoted (cstr body) parts) → extractConstraint k p = .err .invalidArgument)) := by
  have h1 : annLoop k {} p.annotations = (⟨f, n⟩, cstr body) := by
    rw [ha, annLoop_pre hpre, position_fold hp, annLoop_hit]
  refine ⟨fun hb => ?_, fun hb => ⟨fun parts hq => ?_, fun hq => ?_⟩⟩
  · unfold extractConstraint
    rw [h1]
    dsimp only
    rw [if_pos hb]
  · obtain ⟨hne, hnq, hbody⟩ := hq
    unfold extractConstraint
    rw [h1]
    dsimp only
    rw [if_neg hb]
    have h2 : consumePrefix c!"(\"" (cstr body) = some (join c!"\" \"" parts ++ c!"\")") :=
      consumePrefix_iff.2 (by rw [hbody, List.append_assoc])
    rw [h2, Option.bind_some, consumeSuffix_iff.2 rfl]
    dsimp only
    rw [replaceQuotes_join hnq, if_neg (join_noQuote hnq), constraintLoc_eq]
  · unfold extractConstraint
    rw [h1]
    dsimp only
    rw [if_neg hb]
    split
    · rfl
    · rename_i s hs
      split
      · rfl
      · rename_i hn
        exfalso
        cases h2 : consumePrefix c!"(\"" (cstr body) with
        | none =>
          rw [h2] at hs
          cases hs
        | some t =>
          rw [h2, Option.bind_some] at hs
          obtain ⟨parts, hne, hnq, rfl⟩ := replaceQuotes_parts s hn
          refine hq parts ⟨hne, hnq, ?_⟩
          rw [consumePrefix_iff.1 h2, consumeSuffix_iff.1 hs, List.append_assoc]

end P4C
