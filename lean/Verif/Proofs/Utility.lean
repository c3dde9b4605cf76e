import Verif.Spec.Utility
import Verif.Proofs.EvalPure

/-!
# Sizes of syntax trees
-/

namespace P4C

open Spec

/-! ### Parts that count -/

theorem counted_trans {e x y : Expr} {p q r : Path} (h : CountedPart e p x q) (h' : CountedPart x q y r) :
    CountedPart e p y r := by
  induction h' with
  | here => exact h
  | left _ ih => exact .left ih
  | right _ ih => exact .right ih
  | not _ ih => exact .not ih

theorem counted_move {e x : Expr} {p q : Path} (h : CountedPart e p x q) (p' : Path) : ∃ q', CountedPart e p' x q' := by
  induction h with
  | here => exact ⟨p', .here⟩
  | left _ ih => obtain ⟨q', ih⟩ := ih; exact ⟨_, .left ih⟩
  | right _ ih => obtain ⟨q', ih⟩ := ih; exact ⟨_, .right ih⟩
  | not _ ih => obtain ⟨q', ih⟩ := ih; exact ⟨_, .not ih⟩

theorem counted_suffix {e x : Expr} {p q : Path} (h : CountedPart e p x q) : ∃ s, q = s ++ p := by
  induction h with
  | here => exact ⟨[], rfl⟩
  | left _ ih | right _ ih | not _ ih => obtain ⟨s, rfl⟩ := ih; exact ⟨_ :: s, rfl⟩

theorem counted_long {e x : Expr} {p q : Path} (h : CountedPart e p x q) : p.length ≤ q.length := by
  obtain ⟨s, rfl⟩ := counted_suffix h
  simp

theorem counted_unique {e x y : Expr} {p q : Path} (h : CountedPart e p x q) (h' : CountedPart e p y q) : x = y := by
  induction h generalizing y with
  | here =>
    cases h' with
    | here => rfl
    | left h | right h | not h => have := counted_long h; simp at this; omega
  | left h ih =>
    cases h' with
    | here => have := counted_long h; simp at this; omega
    | left h' => cases ih h'; rfl
    | not h' => cases ih h'
  | right h ih =>
    cases h' with
    | here => have := counted_long h; simp at this; omega
    | right h' => cases ih h'; rfl
  | not h ih =>
    cases h' with
    | here => have := counted_long h; simp at this; omega
    | left h' => cases ih h'
    | not h' => cases ih h'; rfl

theorem counted_bin {i : Info} {op : BinOp} {l r x : Expr} {p q : Path} :
    CountedPart (.bin i op l r) p x q ↔
      (x = .bin i op l r ∧ q = p) ∨ CountedPart l (0 :: p) x q ∨ CountedPart r (1 :: p) x q := by
  constructor
  · intro h
    induction h with
    | here => exact .inl ⟨rfl, rfl⟩
    | left _ ih =>
      rcases ih with ⟨h, rfl⟩ | h | h
      · cases h; exact .inr (.inl .here)
      · exact .inr (.inl (.left h))
      · exact .inr (.inr (.left h))
    | right _ ih =>
      rcases ih with ⟨h, rfl⟩ | h | h
      · cases h; exact .inr (.inr .here)
      · exact .inr (.inl (.right h))
      · exact .inr (.inr (.right h))
    | not _ ih =>
      rcases ih with ⟨h, rfl⟩ | h | h
      · cases h
      · exact .inr (.inl (.not h))
      · exact .inr (.inr (.not h))
  · rintro (⟨rfl, rfl⟩ | h | h)
    · exact .here
    · exact counted_trans (.left .here) h
    · exact counted_trans (.right .here) h

theorem counted_not {i : Info} {e x : Expr} {p q : Path} :
    CountedPart (.boolNeg i e) p x q ↔ (x = .boolNeg i e ∧ q = p) ∨ CountedPart e (0 :: p) x q := by
  constructor
  · intro h
    induction h with
    | here => exact .inl ⟨rfl, rfl⟩
    | left _ ih =>
      rcases ih with ⟨h, rfl⟩ | h
      · cases h
      · exact .inr (.left h)
    | right _ ih =>
      rcases ih with ⟨h, rfl⟩ | h
      · cases h
      · exact .inr (.right h)
    | not _ ih =>
      rcases ih with ⟨h, rfl⟩ | h
      · cases h; exact .inr .here
      · exact .inr (.not h)
  · rintro (⟨rfl, rfl⟩ | h)
    · exact .here
    · exact counted_trans (.not .here) h

theorem counted_other {e x : Expr} (he : ¬ Composite e) {p q : Path} : CountedPart e p x q ↔ x = e ∧ q = p := by
  constructor
  · intro h
    induction h with
    | here => exact ⟨rfl, rfl⟩
    | left _ ih | right _ ih => obtain ⟨rfl, rfl⟩ := ih; exact absurd (.bin ..) he
    | not _ ih => obtain ⟨rfl, rfl⟩ := ih; exact absurd (.not ..) he
  · rintro ⟨rfl, rfl⟩; exact .here

/-! ### Sizes -/

theorem sized_bin {i : Info} {op : BinOp} {l r : Expr} {n : Nat} :
    SizedNoParam (.bin i op l r) n ↔ ∃ a b, SizedNoParam l a ∧ SizedNoParam r b ∧ n = 1 + a + b := by
  constructor
  · rintro ⟨h, hn⟩
    cases h with
    | bin _ _ h1 h2 =>
      refine ⟨_, _, ⟨h1, fun x q i m hx => ?_⟩, ⟨h2, fun x q i m hx => ?_⟩, rfl⟩
      · obtain ⟨q', hx⟩ := counted_move hx [0]
        exact hn x q' i m (counted_bin.2 (.inr (.inl hx)))
      · obtain ⟨q', hx⟩ := counted_move hx [1]
        exact hn x q' i m (counted_bin.2 (.inr (.inr hx)))
    | other h _ => exact absurd (.bin ..) h
  · rintro ⟨a, b, ⟨h1, g1⟩, ⟨h2, g2⟩, rfl⟩
    refine ⟨.bin _ _ h1 h2, fun x q i m hx => ?_⟩
    rcases counted_bin.1 hx with ⟨rfl, -⟩ | hx | hx
    · nofun
    · obtain ⟨q', hx⟩ := counted_move hx []
      exact g1 x q' i m hx
    · obtain ⟨q', hx⟩ := counted_move hx []
      exact g2 x q' i m hx

theorem sized_not {i : Info} {e : Expr} {n : Nat} :
    SizedNoParam (.boolNeg i e) n ↔ ∃ a, SizedNoParam e a ∧ n = 1 + a := by
  constructor
  · rintro ⟨h, hn⟩
    cases h with
    | not _ h1 =>
      refine ⟨_, ⟨h1, fun x q i m hx => ?_⟩, rfl⟩
      obtain ⟨q', hx⟩ := counted_move hx [0]
      exact hn x q' i m (counted_not.2 (.inr hx))
    | other h _ => exact absurd (.not ..) h
  · rintro ⟨a, ⟨h1, g1⟩, rfl⟩
    refine ⟨.not _ h1, fun x q i m hx => ?_⟩
    rcases counted_not.1 hx with ⟨rfl, -⟩ | hx
    · nofun
    · obtain ⟨q', hx⟩ := counted_move hx []
      exact g1 x q' i m hx

theorem sized_other {e : Expr} (he : ¬ Composite e) {n : Nat} :
    SizedNoParam e n ↔ n = 1 ∧ (∀ i, e ≠ .notSet i) ∧ ∀ i m, e ≠ .actionParam i m := by
  constructor
  · rintro ⟨h, hn⟩
    refine ⟨?_, ?_, fun i m => hn e [] i m .here⟩
    · cases h with
      | bin => exact absurd (.bin ..) he
      | not => exact absurd (.not ..) he
      | other => rfl
    · cases h with
      | bin => exact absurd (.bin ..) he
      | not => exact absurd (.not ..) he
      | other _ h => exact h
  · rintro ⟨rfl, h1, h2⟩
    refine ⟨.other he h1, fun x q i m hx => ?_⟩
    obtain ⟨rfl, -⟩ := (counted_other he).1 hx
    exact h2 i m

theorem size_sized (e : Expr) : ∀ n, size e = .ok n ↔ SizedNoParam e n := by
  induction e with
  | bin i op l r ihl ihr =>
    intro n
    rw [sized_bin]
    simp only [size, Res.bind_eq_ok, ihl, ihr, Res.ok.injEq]
    constructor
    · rintro ⟨a, h1, b, h2, rfl⟩; exact ⟨a, b, h1, h2, rfl⟩
    · rintro ⟨a, b, h1, h2, rfl⟩; exact ⟨a, h1, b, h2, rfl⟩
  | boolNeg i e ih =>
    intro n
    rw [sized_not]
    simp only [size, Res.bind_eq_ok, ih, Res.ok.injEq]
    constructor
    · rintro ⟨a, h1, rfl⟩; exact ⟨a, h1, rfl⟩
    · rintro ⟨a, h1, rfl⟩; exact ⟨a, h1, rfl⟩
  | _ =>
    intro n
    rw [sized_other (by nofun)]
    simp [size, eq_comm]

theorem size_error (e : Expr) : (∃ n, size e = .ok n) ∨ size e = .err .invalidArgument := by
  induction e with
  | bin i op l r ihl ihr =>
    unfold size
    rcases ihl with ⟨a, h1⟩ | h1
    · rcases ihr with ⟨b, h2⟩ | h2
      · rw [h1, h2]; exact .inl ⟨_, rfl⟩
      · rw [h1, h2]; exact .inr rfl
    · rw [h1]; exact .inr rfl
  | boolNeg i e ih =>
    unfold size
    rcases ih with ⟨a, h1⟩ | h1
    · rw [h1]; exact .inl ⟨_, rfl⟩
    · rw [h1]; exact .inr rfl
  | actionParam | notSet => exact .inr rfl
  | _ => exact .inl ⟨1, rfl⟩

theorem sized_iff_other {e : Expr} (he : ¬ Composite e) : (∃ n, SizedNoParam e n) ↔
    ∀ x q, CountedPart e [] x q → (∀ i, x ≠ .notSet i) ∧ ∀ i m, x ≠ .actionParam i m := by
  constructor
  · rintro ⟨n, h⟩ x q hx
    obtain ⟨rfl, -⟩ := (counted_other he).1 hx
    exact ((sized_other he).1 h).2
  · intro h
    exact ⟨1, (sized_other he).2 ⟨rfl, h _ _ .here⟩⟩

theorem sizedNoParam_iff (e : Expr) : (∃ n, SizedNoParam e n) ↔
    ∀ x q, CountedPart e [] x q → (∀ i, x ≠ .notSet i) ∧ ∀ i m, x ≠ .actionParam i m := by
  induction e with
  | bin i op l r ihl ihr =>
    constructor
    · rintro ⟨n, h⟩ x q hx
      obtain ⟨a, b, h1, h2, -⟩ := sized_bin.1 h
      rcases counted_bin.1 hx with ⟨rfl, -⟩ | hx | hx
      · exact ⟨by simp, by simp⟩
      · obtain ⟨q', hx⟩ := counted_move hx []
        exact ihl.1 ⟨_, h1⟩ x q' hx
      · obtain ⟨q', hx⟩ := counted_move hx []
        exact ihr.1 ⟨_, h2⟩ x q' hx
    · intro h
      obtain ⟨a, h1⟩ := ihl.2 fun x q hx => by
        obtain ⟨q', hx⟩ := counted_move hx [0]
        exact h x q' (counted_bin.2 (.inr (.inl hx)))
      obtain ⟨b, h2⟩ := ihr.2 fun x q hx => by
        obtain ⟨q', hx⟩ := counted_move hx [1]
        exact h x q' (counted_bin.2 (.inr (.inr hx)))
      exact ⟨_, sized_bin.2 ⟨a, b, h1, h2, rfl⟩⟩
  | boolNeg i e ih =>
    constructor
    · rintro ⟨n, h⟩ x q hx
      obtain ⟨a, h1, -⟩ := sized_not.1 h
      rcases counted_not.1 hx with ⟨rfl, -⟩ | hx
      · exact ⟨by simp, by simp⟩
      · obtain ⟨q', hx⟩ := counted_move hx []
        exact ih.1 ⟨_, h1⟩ x q' hx
    · intro h
      obtain ⟨a, h1⟩ := ih.2 fun x q hx => by
        obtain ⟨q', hx⟩ := counted_move hx [0]
        exact h x q' (counted_not.2 (.inr hx))
      exact ⟨_, sized_not.2 ⟨a, h1, rfl⟩⟩
  | _ => exact sized_iff_other (by nofun)

/-! ### The cache -/

/-- What the cache `c'` holds after the size `n` of `e` at `p` was asked for, with the cache `c`. -/
structure Filled (e : Expr) (p : Path) (c : SizeCache) (n : Nat) (c' : SizeCache) : Prop where
  kept : ∀ q m, lookup q c = some m → lookup q c' = some m
  only : ∀ q m, lookup q c' = some m → lookup q c = some m ∨ ∃ x, CountedPart e p x q ∧ Composite x ∧ SizedNoParam x m
  root : Composite e → lookup p c' = some n
  all : (∀ x q, CountedPart e p x q → lookup q c = none) → ∀ x q, CountedPart e p x q → Composite x →
    ∃ m, lookup q c' = some m

theorem rightSizes_filled {e y : Expr} {p r : Path} {c c' : SizeCache} {n : Nat} (h : RightSizes y r c) (hf : Filled e p c n c')
    (hd : ∀ x q x', CountedPart e p x q → CountedPart y r x' q → x = x') : RightSizes y r c' := by
  intro x q m hx hl
  rcases hf.only q m hl with hl | ⟨x', h1, -, h2⟩
  · exact h x q m hx hl
  · rwa [← hd _ _ _ h1 hx]

theorem counted_branches {l r x x' : Expr} {p q : Path} (h : CountedPart l (0 :: p) x q) (h' : CountedPart r (1 :: p) x' q) :
    False := by
  obtain ⟨s, rfl⟩ := counted_suffix h
  obtain ⟨t, ht⟩ := counted_suffix h'
  have := List.append_inj_right' ht rfl
  simp at this

theorem sizeC_hit {e : Expr} {p : Path} {c : SizeCache} {n : Nat} (h : lookup p c = some n) : sizeC e p c = .ok (n, c) := by
  unfold sizeC
  rw [h]

theorem filled_hit {e : Expr} {p : Path} {c : SizeCache} {n : Nat} (h : lookup p c = some n) : Filled e p c n c :=
  ⟨fun _ _ => id, fun _ _ => .inl, fun _ => h, fun hf => by rw [hf e p .here] at h; cases h⟩

theorem filled_other {e : Expr} (he : ¬ Composite e) {p : Path} {c : SizeCache} {n : Nat} : Filled e p c n c :=
  ⟨fun _ _ => id, fun _ _ => .inl, fun h => absurd h he, fun _ x q hx h => by
    obtain ⟨rfl, -⟩ := (counted_other he).1 hx
    exact absurd h he⟩

theorem sizeC_filled (e : Expr) : ∀ p c, RightSizes e p c →
    (∀ n, SizedNoParam e n → ∃ c', sizeC e p c = .ok (n, c') ∧ Filled e p c n c') ∧
    ((¬ ∃ n, SizedNoParam e n) → sizeC e p c = .err .invalidArgument) := by
  have uniq : ∀ {e : Expr} {m n : Nat}, SizedNoParam e m → SizedNoParam e n → m = n := by
    intro e m n h h'
    rw [← size_sized] at h h'
    rw [h] at h'
    exact Res.ok.inj h'
  have hit : ∀ {e : Expr} {p : Path} {c : SizeCache} {k : Nat}, RightSizes e p c → lookup p c = some k →
      (∀ n, SizedNoParam e n → ∃ c', sizeC e p c = .ok (n, c') ∧ Filled e p c n c') ∧
      ((¬ ∃ n, SizedNoParam e n) → sizeC e p c = .err .invalidArgument) := by
    intro e p c k hr hl
    have hk := hr e p k .here hl
    refine ⟨fun n hn => ?_, fun h => absurd ⟨k, hk⟩ h⟩
    cases uniq hn hk
    exact ⟨c, sizeC_hit hl, filled_hit hl⟩
  induction e with
  | bin i op l r ihl ihr =>
    intro p c hr
    cases hl : lookup p c with
    | some k => exact hit hr hl
    | none =>
      have rl : RightSizes l (0 :: p) c := fun x q n hx => hr x q n (counted_bin.2 (.inr (.inl hx)))
      have rr : RightSizes r (1 :: p) c := fun x q n hx => hr x q n (counted_bin.2 (.inr (.inr hx)))
      by_cases h1 : ∃ a, SizedNoParam l a
      · obtain ⟨a, h1⟩ := h1
        obtain ⟨c1, e1, f1⟩ := (ihl _ _ rl).1 a h1
        have rr1 : RightSizes r (1 :: p) c1 := rightSizes_filled rr f1 fun x q x' hx hx' => (counted_branches hx hx').elim
        by_cases h2 : ∃ b, SizedNoParam r b
        · obtain ⟨b, h2⟩ := h2
          obtain ⟨c2, e2, f2⟩ := (ihr _ _ rr1).1 b h2
          have hs : SizedNoParam (.bin i op l r) (1 + a + b) := sized_bin.2 ⟨a, b, h1, h2, rfl⟩
          refine ⟨fun n hn => ?_, fun h => absurd ⟨_, hs⟩ h⟩
          cases uniq hn hs
          refine ⟨(p, 1 + a + b) :: c2, ?_, ?_⟩
          · unfold sizeC
            rw [hl]
            simp only [e1, e2, Res.ok_bind]
          · constructor
            · intro q m hq
              rw [lookup_cons]
              split
              · rename_i hpq; subst hpq; rw [hl] at hq; cases hq
              · exact f2.kept _ _ (f1.kept _ _ hq)
            · intro q m hq
              rw [lookup_cons] at hq
              split at hq
              · rename_i hpq
                subst hpq
                cases hq
                exact .inr ⟨_, .here, .bin .., hs⟩
              · rcases f2.only q m hq with hq | ⟨x, g1, g2, g3⟩
                · rcases f1.only q m hq with hq | ⟨x, g1, g2, g3⟩
                  · exact .inl hq
                  · exact .inr ⟨x, counted_bin.2 (.inr (.inl g1)), g2, g3⟩
                · exact .inr ⟨x, counted_bin.2 (.inr (.inr g1)), g2, g3⟩
            · intro _
              rw [lookup_cons, if_pos rfl]
            · intro hn x q hx hc
              rw [lookup_cons]
              split
              · exact ⟨_, rfl⟩
              · rename_i hpq
                rcases counted_bin.1 hx with ⟨-, rfl⟩ | hx | hx
                · exact absurd rfl hpq
                · obtain ⟨m, hm⟩ := f1.all (fun y q hy => hn y q (counted_bin.2 (.inr (.inl hy)))) x q hx hc
                  exact ⟨m, f2.kept _ _ hm⟩
                · refine f2.all (fun y q hy => ?_) x q hx hc
                  cases hm : lookup q c1 with
                  | none => rfl
                  | some m =>
                    rcases f1.only q m hm with g | ⟨z, g, -, -⟩
                    · rw [hn y q (counted_bin.2 (.inr (.inr hy)))] at g; cases g
                    · exact (counted_branches g hy).elim
        · have := (ihr _ _ rr1).2 h2
          refine ⟨fun n hn => ?_, fun _ => ?_⟩
          · obtain ⟨_, b, _, hb, _⟩ := sized_bin.1 hn
            exact absurd ⟨b, hb⟩ h2
          · unfold sizeC
            rw [hl]
            simp only [e1, this, Res.ok_bind]
            rfl
      · have := (ihl _ _ rl).2 h1
        refine ⟨fun n hn => ?_, fun _ => ?_⟩
        · obtain ⟨a, _, ha, _⟩ := sized_bin.1 hn
          exact absurd ⟨a, ha⟩ h1
        · unfold sizeC
          rw [hl]
          simp only [this]
          rfl
  | boolNeg i e ih =>
    intro p c hr
    cases hl : lookup p c with
    | some k => exact hit hr hl
    | none =>
      have re : RightSizes e (0 :: p) c := fun x q n hx => hr x q n (counted_not.2 (.inr hx))
      by_cases h1 : ∃ a, SizedNoParam e a
      · obtain ⟨a, h1⟩ := h1
        obtain ⟨c1, e1, f1⟩ := (ih _ _ re).1 a h1
        have hs : SizedNoParam (.boolNeg i e) (1 + a) := sized_not.2 ⟨a, h1, rfl⟩
        refine ⟨fun n hn => ?_, fun h => absurd ⟨_, hs⟩ h⟩
        cases uniq hn hs
        refine ⟨(p, 1 + a) :: c1, ?_, ?_⟩
        · unfold sizeC
          rw [hl]
          simp only [e1, Res.ok_bind]
        · constructor
          · intro q m hq
            rw [lookup_cons]
            split
            · rename_i hpq; subst hpq; rw [hl] at hq; cases hq
            · exact f1.kept _ _ hq
          · intro q m hq
            rw [lookup_cons] at hq
            split at hq
            · rename_i hpq
              subst hpq
              cases hq
              exact .inr ⟨_, .here, .not .., hs⟩
            · rcases f1.only q m hq with hq | ⟨x, g1, g2, g3⟩
              · exact .inl hq
              · exact .inr ⟨x, counted_not.2 (.inr g1), g2, g3⟩
          · intro _
            rw [lookup_cons, if_pos rfl]
          · intro hn x q hx hc
            rw [lookup_cons]
            split
            · exact ⟨_, rfl⟩
            · rename_i hpq
              rcases counted_not.1 hx with ⟨-, rfl⟩ | hx
              · exact absurd rfl hpq
              · exact f1.all (fun y q hy => hn y q (counted_not.2 (.inr hy))) x q hx hc
      · have := (ih _ _ re).2 h1
        refine ⟨fun n hn => ?_, fun _ => ?_⟩
        · obtain ⟨a, ha, _⟩ := sized_not.1 hn
          exact absurd ⟨a, ha⟩ h1
        · unfold sizeC
          rw [hl]
          simp only [this]
          rfl
  | _ =>
    intro p c hr
    cases hl : lookup p c with
    | some k => exact hit hr hl
    | none =>
      rw [sizeC]
      rw [hl]
      refine ⟨fun n hn => ?_, fun h => ?_⟩
      · obtain ⟨rfl, h1, h2⟩ := (sized_other (by nofun)).1 hn
        first
          | exact absurd rfl (h1 _)
          | exact absurd rfl (h2 _ _)
          | exact ⟨c, rfl, filled_other (by nofun)⟩
      · first
          | rfl
          | exact absurd ⟨1, (sized_other (by nofun)).2 ⟨rfl, by simp, by simp⟩⟩ h

end P4C
