import Verif.Model.Regex

/-
What the regular expressions of the library match.
-/

namespace P4C

/-- A positive class of ASCII characters. -/
structure Cls.Ascii (k : Cls) : Prop where
  pos : k.neg = false
  ascii : ∀ c, k.mem c = true → c.toNat < 0x80

theorem Cls.Ascii.len {k : Cls} (h : k.Ascii) (c : Char) (cs : Str) :
    k.len (c :: cs) = if k.mem c then some 1 else none := by
  unfold Cls.len
  rw [h.pos]
  by_cases hm : k.mem c = true
  · simp [hm, h.ascii c hm]
  · simp only [Bool.not_eq_true] at hm
    simp [hm]

/-- Length of the longest prefix matched by the repetition of a class. -/
def munch (k : Cls) : Nat → Str → Nat
  | 0, _ => 0
  | fuel + 1, s =>
    match k.len s with
    | some n => n + munch k fuel (s.drop n)
    | none => 0

theorem starLens_head (k : Cls) (fuel : Nat) (s : Str) :
    ∃ tl, starLens k fuel s = munch k fuel s :: tl := by
  induction fuel generalizing s with
  | zero => exact ⟨[], rfl⟩
  | succ fuel ih =>
    unfold starLens munch
    cases h : k.len s with
    | none => exact ⟨[], rfl⟩
    | some n =>
      obtain ⟨tl, htl⟩ := ih (s.drop n)
      refine ⟨tl.map (n + ·) ++ [0], ?_⟩
      simp [htl]

theorem Cls.Ascii.munch {k : Cls} (h : k.Ascii) {fuel : Nat} {s : Str} (hf : s.length ≤ fuel) :
    munch k fuel s = (s.takeWhile k.mem).length := by
  induction fuel generalizing s with
  | zero =>
    have : s = [] := List.length_eq_zero_iff.1 (by omega)
    subst this; rfl
  | succ fuel ih =>
    unfold P4C.munch
    cases s with
    | nil => simp [Cls.len]
    | cons c cs =>
      rw [h.len]
      by_cases hm : k.mem c = true
      · simp only [hm, if_true, List.takeWhile_cons, List.length_cons, List.drop_one, List.tail_cons]
        rw [ih (by simpa using hf)]
        omega
      · simp only [Bool.not_eq_true] at hm
        simp [hm]

/-! ### The preferred match -/

theorem first_alt (r t : Re) (s : Str) : (Re.alt r t).first s = (r.first s).or (t.first s) := by
  unfold Re.first
  rw [Re.matches]
  cases h : r.matches s <;> simp

theorem first_grp (g : Grp) (r : Re) (s : Str) :
    (Re.grp g r).first s = (r.first s).map fun m => (m.1, (g, s.take m.1) :: m.2) := by
  unfold Re.first
  rw [Re.matches]
  cases h : r.matches s <;> simp

theorem first_opt (r : Re) (s : Str) : (Re.opt r).first s = (r.first s).or (some (0, [])) := by
  unfold Re.first
  rw [Re.matches]
  cases h : r.matches s <;> simp

theorem first_cls (k : Cls) (s : Str) : (Re.cls k).first s = (k.len s).map fun n => (n, []) := by
  unfold Re.first
  rw [Re.matches]
  cases h : k.len s <;> simp

theorem first_star (k : Cls) (s : Str) : (Re.star k).first s = some (munch k s.length s, []) := by
  unfold Re.first
  rw [Re.matches]
  obtain ⟨tl, h⟩ := starLens_head k s.length s
  simp [h]

/-- A pattern with at most one match. -/
def Re.Det (r : Re) : Prop := ∀ s, (r.matches s).length ≤ 1

theorem det_eps : Re.eps.Det := by intro s; simp [Re.matches]
theorem det_cls (k : Cls) : (Re.cls k).Det := by
  intro s; rw [Re.matches]; split <;> simp

theorem Re.Det.eq {r : Re} (h : r.Det) (s : Str) : r.matches s = (r.first s).toList := by
  have := h s
  unfold Re.first
  match hm : r.matches s with
  | [] => rfl
  | [a] => rfl
  | a :: b :: l => rw [hm] at this; simp at this

theorem matches_seq_det {r : Re} (h : r.Det) (t : Re) (s : Str) :
    (Re.seq r t).matches s = ((r.first s).map fun m =>
      (t.matches (s.drop m.1)).map fun m' => (m.1 + m'.1, m.2 ++ m'.2)).getD [] := by
  rw [Re.matches, h.eq]
  cases r.first s <;> simp

theorem first_seq_det {r : Re} (h : r.Det) (t : Re) (s : Str) :
    (Re.seq r t).first s = (r.first s).bind fun m =>
      (t.first (s.drop m.1)).map fun m' => (m.1 + m'.1, m.2 ++ m'.2) := by
  unfold Re.first
  rw [matches_seq_det h]
  unfold Re.first
  cases hr : (r.matches s).head? with
  | none => simp
  | some m => simp

/-- If the second part always matches, the preferred match is made of the preferred matches. -/
theorem first_seq_total {r t : Re} (ht : ∀ s, t.first s ≠ none) (s : Str) :
    (Re.seq r t).first s = (r.first s).bind fun m =>
      (t.first (s.drop m.1)).map fun m' => (m.1 + m'.1, m.2 ++ m'.2) := by
  unfold Re.first
  rw [Re.matches]
  cases hr : r.matches s with
  | nil => simp
  | cons m ms =>
    have := ht (s.drop m.1)
    unfold Re.first at this
    cases hm : t.matches (s.drop m.1) with
    | nil => rw [hm] at this; exact absurd rfl this
    | cons a l => simp [hm]

theorem det_seq {r t : Re} (hr : r.Det) (ht : t.Det) : (Re.seq r t).Det := by
  intro s
  rw [matches_seq_det hr]
  cases r.first s with
  | none => simp
  | some m => simpa using ht _

theorem det_lit (l : Str) : (Re.lit l).Det := by
  match l with
  | [] => exact det_eps
  | [c] => exact det_cls _
  | c :: d :: cs => exact det_seq (det_cls _) (det_lit (d :: cs))

theorem oneOf_ascii {cs : Str} (h : cs.all (fun c => c.toNat < 0x80) = true) : (Re.oneOf cs).Ascii := by
  refine ⟨rfl, ?_⟩
  intro c hc
  simp only [Re.oneOf, List.contains_iff_mem] at hc
  simp only [List.all_eq_true, decide_eq_true_eq] at h
  exact h c hc

theorem first_lit {l : Str} (h : l.all (fun c => c.toNat < 0x80) = true) (s : Str) :
    (Re.lit l).first s = if l.isPrefixOf s then some (l.length, []) else none := by
  match l with
  | [] => simp [Re.lit, Re.first, Re.matches]
  | [c] =>
    rw [Re.lit, first_cls]
    cases s with
    | nil => simp [Cls.len]
    | cons d s =>
      rw [(oneOf_ascii h).len]
      simp only [Re.oneOf, List.contains_cons, List.contains_nil, Bool.or_false,
        List.isPrefixOf, Bool.and_true, beq_iff_eq, List.length_singleton]
      by_cases hd : d = c
      · subst hd; simp
      · simp [hd, Ne.symm hd]
  | c :: e :: cs =>
    have h1 : [c].all (fun c => c.toNat < 0x80) = true := by
      simp only [List.all_cons, List.all_nil, Bool.and_true] at h ⊢
      simp only [Bool.and_eq_true] at h
      exact h.1
    have h2 : (e :: cs).all (fun c => c.toNat < 0x80) = true := by
      simp only [List.all_cons, Bool.and_eq_true] at h ⊢
      exact h.2
    rw [Re.lit, first_seq_det (det_cls _), first_cls]
    · cases s with
      | nil => simp [Cls.len]
      | cons d s =>
        rw [(oneOf_ascii h1).len]
        simp only [Re.oneOf, List.contains_cons, List.contains_nil, Bool.or_false, List.isPrefixOf_cons_cons,
          beq_iff_eq]
        by_cases hd : d = c
        · subst hd
          simp only [if_true, Option.map_some, Option.bind_some, List.drop_one, List.tail_cons,
            List.nil_append, beq_self_eq_true, Bool.true_and]
          rw [first_lit h2]
          split <;> simp [Nat.add_comm]
        · simp [hd, Ne.symm hd]
    · intro hh; cases hh
termination_by l.length

theorem first_plus {k : Cls} (h : k.Ascii) (s : Str) :
    (Re.plus k).first s =
      if s.takeWhile k.mem = [] then none else some ((s.takeWhile k.mem).length, []) := by
  unfold Re.plus
  rw [first_seq_det (det_cls _), first_cls]
  cases s with
  | nil => simp [Cls.len]
  | cons c cs =>
    rw [h.len]
    by_cases hm : k.mem c = true
    · simp [hm, first_star, h.munch (Nat.le_refl _), Nat.add_comm]
    · simp only [Bool.not_eq_true] at hm
      simp [hm]

theorem star_total (k : Cls) (s : Str) : (Re.star k).first s ≠ none := by simp [first_star]

end P4C
