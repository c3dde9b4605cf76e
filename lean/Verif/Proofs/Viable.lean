import Verif.Proofs.Recognize

/-!
# Syntax errors are reported at the first token that does not continue a constraint
-/

namespace P4C

open Spec

theorem Spec.Shape.le8 {n : Nat} {ks : List Kind} (h : Shape n ks) : n ≤ 8 := by
  cases h with
  | bin hi => have := infix_inv hi; omega
  | up hn => omega
  | _ => decide

theorem Spec.Shape.down {n m : Nat} {ks : List Kind} (h : Shape n ks) (hm : m ≤ n) : Shape m ks := by
  have h8 := h.le8
  obtain ⟨d, rfl⟩ := Nat.exists_eq_add_of_le hm
  clear hm
  induction d generalizing m with
  | zero => exact h
  | succ d ih => exact ih (Shape.up (by omega) (by simpa [Nat.add_assoc] using h)) (by omega)

theorem Spec.Viable.of_append {a b : List Kind} (h : Viable (a ++ b)) : Viable a := by
  obtain ⟨r, h⟩ := h
  exact ⟨b ++ r, by rwa [← List.append_assoc]⟩

/-- An expression can be continued by `&&`, `||` and `;`. -/
theorem shape_extend {o : Kind} {op : BinOp} {n : Nat} (ho : Infix o op n n (n + 1)) {q : Nat} {ks : List Kind}
    (h : Shape q ks) : 1 ≤ q → Shape (min q n) (ks ++ [o, .true_]) := by
  have hn := (infix_inv ho)
  have base : ∀ {q ks}, Shape q ks → n ≤ q → Shape (min q n) (ks ++ [o, .true_]) := by
    intro q ks h hq
    rw [Nat.min_eq_right hq]
    exact Shape.bin ho (h.down hq) (Shape.true_.down (by omega))
  induction h with
  | up hlt h ih =>
    rename_i m ks
    intro h1
    exact (ih (by omega)).down (by omega)
  | bin hi hl hr ihl ihr =>
    rename_i o' op' n' l' r' ks us
    intro h1
    by_cases hq : n ≤ n'
    · exact base (Shape.bin hi hl hr) hq
    · obtain ⟨_, _, _, e, _⟩ := infix_inv hi
      have := ihr (by omega)
      rw [Nat.min_eq_left (by omega)] at this ⊢
      rw [List.append_assoc, List.cons_append]
      exact Shape.bin hi hl this
  | trailing => intro h1; omega
  | true_ => exact fun _ => base Shape.true_ (by omega)
  | false_ => exact fun _ => base Shape.false_ (by omega)
  | numeral hb => exact fun _ => base (Shape.numeral hb) (by omega)
  | address => exact fun _ => base Shape.address (by omega)
  | name hb => exact fun _ => base (Shape.name hb) (by omega)
  | attr => exact fun _ => base Shape.attr (by omega)
  | paren hb => exact fun _ => base (Shape.paren hb) (by omega)
  | field hb => exact fun _ => base (Shape.field hb) (by omega)
  | not hb => exact fun _ => base (Shape.not hb) (by omega)
  | neg hb => exact fun _ => base (Shape.neg hb) (by omega)

theorem infix_operator {o : Kind} {op : BinOp} {n l r : Nat} (h : Infix o op n l r) : o ∈ operators ∨ o = .semicolon := by
  cases h <;> first | exact .inl (by decide) | exact .inr rfl

theorem tokenPrecedence_pos {k : Kind} (h : isExtension k = true) : 0 < tokenPrecedence k := by
  cases k <;> first | (cases h; done) | decide

theorem not_next {k : Kind} (h : ¬ (k = .endOfInput ∨ k = .rpar)) (h' : ¬ isExtension k = true) : k ∉ operandNexts := by
  revert h h'
  cases k <;> decide

/-- The connectives that associate to the left. -/
def Conn (o : Kind) : Prop := o = .and ∨ o = .or ∨ o = .semicolon

theorem Conn.infix {o : Kind} (h : Conn o) : ∃ op n, Infix o op n n (n + 1) ∧ 1 ≤ n := by
  rcases h with rfl | rfl | rfl
  · exact ⟨_, _, .and, by decide⟩
  · exact ⟨_, _, .or, by decide⟩
  · exact ⟨_, _, .semicolon, by decide⟩

/-- The levels `rAbove p` yields. -/
def Fits0 (p q : Nat) : Prop := p = 0 ∨ Fits p q

/-- After `pre`, an operand in the context of precedence `p` may follow. -/
structure Hole (p : Nat) (pre : List Kind) : Prop where
  fill : ∀ {ks : List Kind} {q : Nat}, Shape q ks → Fits0 p q → Viable (pre ++ ks)
  extend : ∀ {ks : List Kind} {q : Nat} {o : Kind}, Shape q ks → Fits0 p q → 1 ≤ q → Conn o → Viable (pre ++ ks ++ [o])
  close : p = 2 ∨ p = 5 → ∀ {ks : List Kind} {q : Nat} {o : Kind} {op : BinOp}, Shape q ks → Fits p q →
    Infix o op p (p + 1) (p + 1) → ∃ u v, pre ++ ks = u ++ v ∧ Viable (u ++ [.lpar] ++ v ++ [.rpar] ++ [o])

theorem hole_top : Hole 0 [] where
  fill h _ := ⟨[.endOfInput], _, h.down (Nat.zero_le _), rfl⟩
  extend := by
    intro ks q o h _ h1 ho
    obtain ⟨op, n, hi, hn⟩ := ho.infix
    exact ⟨[.true_, .endOfInput], _, (shape_extend hi h h1).down (Nat.zero_le _), by simp⟩
  close := by intro h; omega

theorem Hole.paren {p : Nat} {pre : List Kind} (hp : p ≤ 6) (h : Hole p pre) : Hole 0 (pre ++ [.lpar]) where
  fill := by
    intro ks q hs _
    have := h.fill (Shape.paren (hs.down (Nat.zero_le _))) (q := 8) (by unfold Fits0 Fits; omega)
    rw [List.append_assoc]
    have e : pre ++ (Kind.lpar :: ks ++ [.rpar]) = (pre ++ ([.lpar] ++ ks)) ++ [.rpar] := by simp
    rw [e] at this
    exact this.of_append
  extend := by
    intro ks q o hs _ h1 ho
    obtain ⟨op, n, hi, hn⟩ := ho.infix
    have := h.fill (Shape.paren ((shape_extend hi hs h1).down (Nat.zero_le _))) (q := 8) (by unfold Fits0 Fits; omega)
    have e : pre ++ (Kind.lpar :: (ks ++ [o, .true_]) ++ [.rpar]) = (pre ++ [.lpar] ++ ks ++ [o]) ++ [.true_, .rpar] := by simp
    rw [e] at this
    exact this.of_append
  close := by intro h; omega

theorem Hole.unary {p : Nat} {pre : List Kind} {o : Kind} (hp : p ≤ 6) (h : Hole p pre) (ho : o = .bang ∨ o = .minus) :
    Hole 6 (pre ++ [o]) := by
  have mk : ∀ {ks q}, Shape q ks → Fits0 6 q → Shape 6 (o :: ks) := by
    intro ks q hs hf
    have : 6 ≤ q := by unfold Fits0 Fits at hf; omega
    rcases ho with rfl | rfl
    · exact Shape.not (hs.down this)
    · exact Shape.neg (hs.down this)
  constructor
  · intro ks q hs hf
    have := h.fill (mk hs hf) (by unfold Fits0 Fits; omega)
    simpa using this
  · intro ks q o' hs hf h1 ho'
    have := h.extend (mk hs hf) (by unfold Fits0 Fits; omega) (by decide) ho'
    simpa using this
  · intro h; omega

theorem Hole.binary {p n l : Nat} {pre left : List Kind} {q : Nat} {o : Kind} {op : BinOp} (h : Hole p pre)
    (hs : Shape q left) (ho : Infix o op n l (n + 1)) (hp : p < n) (hl : l ≤ q) : Hole n (pre ++ left ++ [o]) := by
  obtain ⟨hx, hd, he, _, h1, h5, _, ha⟩ := infix_inv ho
  have mk : ∀ {ks q}, Shape q ks → Fits0 n q → Shape n (left ++ o :: ks) := by
    intro ks q' hs' hf
    exact Shape.bin ho (hs.down hl) (hs'.down (by unfold Fits0 Fits at hf; omega))
  constructor
  · intro ks q hs hf
    have := h.fill (mk hs hf) (by unfold Fits0 Fits; omega)
    simpa using this
  · intro ks q o' hs hf _ ho'
    have := h.extend (mk hs hf) (by unfold Fits0 Fits; omega) (by omega) ho'
    simpa using this
  · intro hn ks q o' op' hs hf ho'
    refine ⟨pre, left ++ o :: ks, by simp, ?_⟩
    have h8 := Shape.paren ((mk hs (.inr hf)).down (Nat.zero_le _))
    have := h.fill (Shape.bin ho' (h8.down (by omega)) (Shape.true_.down (by omega))) (by unfold Fits0 Fits; omega)
    have e : pre ++ (Kind.lpar :: (left ++ o :: ks) ++ [.rpar] ++ o' :: [.true_]) =
      (pre ++ [.lpar] ++ (left ++ o :: ks) ++ [.rpar] ++ [o']) ++ [.true_] := by simp
    rw [e] at this
    exact this.of_append

/-- `k` ends the expression read by `rAbove p`. -/
def StopK (p : Nat) (k : Kind) : Prop :=
  k = .endOfInput ∨ k = .rpar ∨ (isExtension k = true ∧ (tokenPrecedence k < p ∨
    (tokenPrecedence k = p ∧ tokenAssociativity k = .left)))

/-- The kinds that may be named as expected wrongly. -/
def Doubtful (k : Kind) : Prop :=
  k ∈ [Kind.endOfInput, .rpar, .implies, .eq, .ne, .gt, .ge, .lt, .le]

/-- What is claimed about a syntax error after `w` at a token of kind `t`. -/
def ReasonOk (w : List Kind) (t : Kind) : Reason → Prop
  | .expected ks => ((∃ k, ks = [k] ∧ Viable (w ++ [k])) ∨
      (Kind.doubleColon ∈ ks ∧ 2 ≤ ks.length ∧ ∀ k ∈ ks, ¬ Doubtful k → Viable (w ++ [k]))) ∧ Enumerated w t ks
  | .nonAssoc => ∃ (op : BinOp) (n : Nat) (u v : List Kind), Infix t op n (n + 1) (n + 1) ∧ w = u ++ v ∧
      Viable (u ++ [.lpar] ++ v ++ [.rpar] ++ [t]) ∧ ∃ u o, w = u ++ [o] ∧ o ∈ operandEnds

/-- What is claimed about an outcome of reading `ks` after `w`. -/
def Claim (w ks : List Kind) (ok : List Kind → List Kind → Prop) : RO → Prop
  | .ok r => ∃ a, ks = a ++ r ∧ ok a r
  | .fail d r => ∃ a, ks = a ++ r ∧ Viable (w ++ a) ∧ ReasonOk (w ++ a) (hd r) d
  | .addr r => ∃ a, ks = a ++ r ∧ Viable (w ++ a)
  | .oof => True

theorem Claim.bind {w ks : List Kind} {ok ok' : List Kind → List Kind → Prop} {o : RO} {f : List Kind → RO}
    (h : Claim w ks ok o) (hf : ∀ a r, ks = a ++ r → ok a r → Claim (w ++ a) r (fun b r' => ok' (a ++ b) r') (f r)) :
    Claim w ks ok' (o.bind f) := by
  cases o with
  | ok r =>
    obtain ⟨a, rfl, h⟩ := h
    have := hf a r rfl h
    show Claim w (a ++ r) ok' (f r)
    cases hr : f r with
    | ok r' =>
      rw [hr] at this
      obtain ⟨b, rfl, h'⟩ := this
      exact ⟨a ++ b, by simp, h'⟩
    | fail d r' =>
      rw [hr] at this
      obtain ⟨b, rfl, h'⟩ := this
      exact ⟨a ++ b, by simp, by simpa using h'⟩
    | addr r' =>
      rw [hr] at this
      obtain ⟨b, rfl, h'⟩ := this
      exact ⟨a ++ b, by simp, by simpa using h'⟩
    | oof => trivial
  | fail d r => exact h
  | addr r => exact h
  | oof => trivial

theorem Claim.mono {w ks : List Kind} {ok ok' : List Kind → List Kind → Prop} {o : RO} (h : Claim w ks ok o)
    (hm : ∀ a r, ks = a ++ r → ok a r → ok' a r) : Claim w ks ok' o := by
  cases o with
  | ok r => obtain ⟨a, e, h⟩ := h; exact ⟨a, e, hm a r e h⟩
  | fail d r => exact h
  | addr r => exact h
  | oof => trivial

/-- Consuming a token. -/
theorem Claim.step {w ks : List Kind} {ok : List Kind → List Kind → Prop} {o : RO} (hk : hd ks ≠ .endOfInput)
    (h : Claim (w ++ [hd ks]) ks.tail (fun a r => ok (hd ks :: a) r) o) : Claim w ks ok o := by
  cases ks with
  | nil => exact absurd rfl hk
  | cons k ks =>
    change Claim (w ++ [k]) ks (fun a r => ok (k :: a) r) o at h
    cases o with
    | ok r => obtain ⟨a, rfl, h⟩ := h; exact ⟨k :: a, rfl, h⟩
    | fail d r => obtain ⟨a, rfl, h⟩ := h; exact ⟨k :: a, rfl, by simpa using h⟩
    | addr r => obtain ⟨a, rfl, h⟩ := h; exact ⟨k :: a, by simp, by simpa using h⟩
    | oof => trivial

theorem claim_expect {w ks : List Kind} {k : Kind} (hk : k ≠ .endOfInput) (hv : Viable (w ++ [k]))
    (he : hd ks ≠ k → Enumerated w (hd ks) [k]) :
    Claim w ks (fun a _ => a = [k]) (rExpect k ks) := by
  unfold rExpect
  by_cases h : hd ks = k
  · rw [if_pos h]
    cases ks with
    | nil => exact absurd h.symm hk
    | cons k' ks => exact ⟨[k'], rfl, by rw [← h]; rfl⟩
  · rw [if_neg h]
    exact ⟨[], rfl, by rw [List.append_nil]; exact hv.of_append, .inl ⟨k, rfl, by rw [List.append_nil]; exact hv⟩,
      by rw [List.append_nil]; exact he h⟩

theorem claim_dots {w : List Kind} : ∀ (n : Nat) (ks a : List Kind), ks.length ≤ n → Names a →
    (∀ b, Names b → Viable (w ++ b)) → Claim (w ++ a) ks (fun b _ => Names (a ++ b)) (rDots ks)
  | n, ks, a, hn, ha, hv => by
    rw [rDots_eq]
    by_cases h : hd ks = .dot
    · rw [if_pos h]
      refine Claim.step (by rw [h]; decide) ?_
      rw [h]
      have hv' := hv _ (Names.snoc ha)
      have e : w ++ (a ++ [Kind.dot, .id]) = w ++ a ++ [.dot] ++ [.id] := by simp
      rw [e] at hv'
      refine Claim.bind (claim_expect (by decide) hv' fun _ => .field (.inl rfl)) ?_
      rintro b r hr rfl
      cases n with
      | zero => cases ks with
        | nil => cases h
        | cons => simp at hn
      | succ n =>
        have := claim_dots (w := w) n r (a ++ [.dot, .id]) (by
          have := congrArg List.length hr
          simp at this
          omega) (Names.snoc ha) hv
        simpa using this
    · rw [if_neg h]
      exact ⟨[], rfl, by simpa using ha⟩

theorem viable_initial {p : Nat} {pre : List Kind} (h : Hole p pre) (hp : p ≤ 6) :
    ∀ k ∈ initialKinds, Viable (pre ++ [k]) := by
  have f8 : Fits0 p 8 := by unfold Fits0 Fits; omega
  have f6 : Fits0 p 6 := by unfold Fits0 Fits; omega
  intro k hk
  simp only [initialKinds, List.mem_cons, List.not_mem_nil, or_false] at hk
  rcases hk with rfl | rfl | rfl | rfl | rfl | rfl | rfl | rfl | rfl | rfl | rfl
  · exact h.fill Shape.true_ f8
  · exact h.fill Shape.false_ f8
  · exact h.fill (Shape.numeral (b := 2) rfl) f8
  · exact h.fill (Shape.numeral (b := 8) rfl) f8
  · exact h.fill (Shape.numeral (b := 10) rfl) f8
  · exact h.fill (Shape.numeral (b := 16) rfl) f8
  · exact h.fill (Shape.name .one) f8
  · have := h.fill Shape.attr f8
    rw [show [Kind.doubleColon, .id] = [.doubleColon] ++ [.id] from rfl, ← List.append_assoc] at this
    exact this.of_append
  · have := h.fill (Shape.not (Shape.true_.down (by decide))) f6
    rw [show [Kind.bang, .true_] = [.bang] ++ [.true_] from rfl, ← List.append_assoc] at this
    exact this.of_append
  · have := h.fill (Shape.neg (Shape.true_.down (by decide))) f6
    rw [show [Kind.minus, .true_] = [.minus] ++ [.true_] from rfl, ← List.append_assoc] at this
    exact this.of_append
  · have := h.fill (Shape.paren (Shape.true_.down (by decide))) f8
    rw [show Kind.lpar :: [Kind.true_] ++ [.rpar] = [.lpar] ++ [.true_, .rpar] from rfl, ← List.append_assoc] at this
    exact this.of_append

/-- `k` may follow an expression of level `q` read by the recogniser. -/
def NextK (q : Nat) (k : Kind) : Prop := 7 ≤ q ∨ StopK q k

theorem NextK.level {q : Nat} {k : Kind} (h : NextK q k) (hx : isExtension k = true) :
    tokenPrecedence k < q ∨ (tokenPrecedence k = q ∧ tokenAssociativity k = .left) := by
  rcases h with h | h | h | h
  · have := tokenPrecedence_le k
    by_cases e : tokenPrecedence k = q
    · refine .inr ⟨e, ?_⟩
      have e7 : tokenPrecedence k = 7 := by omega
      cases k <;> first | rfl | exact absurd e7 (by decide)
    · exact .inl (by omega)
  · rw [h] at hx; cases hx
  · rw [h] at hx; cases hx
  · exact h.2

/-- An operand may be read here. -/
def OpenAt (pre : List Kind) (t : Kind) : Prop :=
  Opening pre ∧ ∀ u, pre = u ++ [.semicolon] → t ≠ .endOfInput ∧ t ≠ .rpar

theorem openAt_snoc {pre : List Kind} {o t : Kind} (ho : o ∈ operators) : OpenAt (pre ++ [o]) t := by
  refine ⟨.operator ho, fun u e => ?_⟩
  have := List.append_inj_right' e rfl
  cases this
  exact absurd ho (by decide)

theorem openAt_paren {pre : List Kind} {t t' : Kind} (h : OpenAt pre t) : OpenAt (pre ++ [.lpar]) t' := by
  refine ⟨.paren ?_, fun u e => by have := List.append_inj_right' e rfl; cases this⟩
  rintro v rfl
  generalize hw : v ++ [Kind.id] = w at h
  cases h.1 with
  | start => simp at hw
  | operator ho => have := List.append_inj_right' hw rfl; cases this; exact absurd ho (by decide)
  | semicolon => have := List.append_inj_right' hw rfl; cases this
  | paren => have := List.append_inj_right' hw rfl; cases this

theorem names_last {ks : List Kind} (h : Names ks) : ∃ u, ks = u ++ [.id] := by
  cases h with
  | one => exact ⟨[], rfl⟩
  | @snoc ks h => exact ⟨ks ++ [.dot], by simp⟩

/-- What an expression ends with. -/
theorem shape_last {n : Nat} {ks : List Kind} (h : Shape n ks) :
    ∃ u o, ks = u ++ [o] ∧ (o ∈ operandEnds ∨ n = 0 ∧ o = .semicolon) := by
  induction h with
  | true_ => exact ⟨[], _, rfl, .inl (by decide)⟩
  | false_ => exact ⟨[], _, rfl, .inl (by decide)⟩
  | numeral hb => rename_i k b; exact ⟨[], _, rfl, .inl (by cases k <;> first | (cases hb; done) | decide)⟩
  | address => exact ⟨[.id, .lpar, .string], .rpar, rfl, .inl (by decide)⟩
  | name h => obtain ⟨u, rfl⟩ := names_last h; exact ⟨u, _, rfl, .inl (by decide)⟩
  | attr => exact ⟨[.doubleColon], .id, rfl, .inl (by decide)⟩
  | paren => exact ⟨_, _, rfl, .inl (by decide)⟩
  | up hn _ ih =>
    obtain ⟨u, o, e, h | h⟩ := ih
    · exact ⟨u, o, e, .inl h⟩
    · omega
  | @field ks _ _ => exact ⟨ks ++ [.doubleColon], .id, by simp, .inl (by decide)⟩
  | not _ ih =>
    obtain ⟨u, o, rfl, h | h⟩ := ih
    · exact ⟨.bang :: u, o, rfl, .inl h⟩
    · omega
  | neg _ ih =>
    obtain ⟨u, o, rfl, h | h⟩ := ih
    · exact ⟨.minus :: u, o, rfl, .inl h⟩
    · omega
  | @bin o' _ _ _ _ ks us hi _ _ _ ih =>
    obtain ⟨u, o, rfl, h | h⟩ := ih
    · exact ⟨ks ++ o' :: u, o, by simp, .inl h⟩
    · have := infix_inv hi; omega
  | trailing => exact ⟨_, _, rfl, .inr ⟨rfl, rfl⟩⟩

theorem shape_append_last {n : Nat} {w ks : List Kind} (h : Shape n ks) :
    ∃ u o, w ++ ks = u ++ [o] ∧ (o ∈ operandEnds ∨ n = 0 ∧ o = .semicolon) := by
  obtain ⟨u, o, rfl, h'⟩ := shape_last h
  exact ⟨w ++ u, o, by simp, h'⟩

/-- The claim about `rAbove`. -/
def AboveClaim (rec : Nat → List Kind → RO) : Prop :=
  ∀ p pre ks, p ≤ 6 → Hole p pre → OpenAt pre (hd ks) → Claim pre ks (fun a r => ∃ q, Shape q a ∧ Fits0 p q ∧ StopK p (hd r)) (rec p ks)

theorem claim_head {bad : Nat → Prop} {rec : Nat → List Kind → RO} (ih : AboveClaim rec) {p : Nat} {pre ks : List Kind}
    (hp : p ≤ 6) (h : Hole p pre) (ho : OpenAt pre (hd ks)) :
    Claim pre ks (fun a r => ∃ q, Shape q a ∧ 6 ≤ q ∧ NextK q (hd r)) (rHead bad rec ks) := by
  have f8 : Fits0 p 8 := by unfold Fits0 Fits; omega
  have one : hd ks ≠ .endOfInput → Shape 8 [hd ks] →
      Claim pre ks (fun a r => ∃ q, Shape q a ∧ 6 ≤ q ∧ NextK q (hd r)) (RO.ok ks.tail) := by
    intro hk hs
    exact Claim.step hk ⟨[], rfl, 8, hs, by decide, .inl (by decide)⟩
  have bad' : Claim pre ks (fun a r => ∃ q, Shape q a ∧ 6 ≤ q ∧ NextK q (hd r)) (RO.fail (.expected initialKinds) ks) := by
    refine ⟨[], rfl, ?_, .inr ⟨by decide, by decide, ?_⟩, by rw [List.append_nil]; exact .operand ho.1 ho.2⟩
    · have := viable_initial h hp .true_ (by decide)
      rw [List.append_nil]; exact this.of_append
    · intro k hk _
      rw [List.append_nil]
      exact viable_initial h hp k hk
  have un : hd ks = .bang ∨ hd ks = .minus →
      Claim pre ks (fun a r => ∃ q, Shape q a ∧ 6 ≤ q ∧ NextK q (hd r)) (rec 6 ks.tail) := by
    intro hk
    refine Claim.step (by rcases hk with hk | hk <;> rw [hk] <;> decide) ?_
    refine (ih 6 _ ks.tail (by decide) (h.unary hp hk)
      (openAt_snoc (by rcases hk with hk | hk <;> rw [hk] <;> decide))).mono ?_
    rintro a r - ⟨q, hs, hf, hst⟩
    have hq : 6 ≤ q := by unfold Fits0 Fits at hf; omega
    refine ⟨6, ?_, by decide, .inr hst⟩
    rcases hk with hk | hk <;> rw [hk]
    · exact Shape.not (hs.down hq)
    · exact Shape.neg (hs.down hq)
  unfold rHead
  cases hk : hd ks <;> dsimp only
  case true_ => exact one (by rw [hk]; decide) (by rw [hk]; exact Shape.true_)
  case false_ => exact one (by rw [hk]; decide) (by rw [hk]; exact Shape.false_)
  case binary => exact one (by rw [hk]; decide) (by rw [hk]; exact Shape.numeral (b := 2) rfl)
  case octary => exact one (by rw [hk]; decide) (by rw [hk]; exact Shape.numeral (b := 8) rfl)
  case decimal => exact one (by rw [hk]; decide) (by rw [hk]; exact Shape.numeral (b := 10) rfl)
  case hexadec => exact one (by rw [hk]; decide) (by rw [hk]; exact Shape.numeral (b := 16) rfl)
  case bang => exact un (.inl hk)
  case minus => exact un (.inr hk)
  case doubleColon =>
    refine Claim.step (by rw [hk]; decide) ?_
    have hv := h.fill Shape.attr f8
    rw [hk]
    refine (claim_expect (by decide) (by simpa using hv) fun _ => .field (.inr rfl)).mono ?_
    rintro a r - rfl
    exact ⟨8, Shape.attr, by decide, .inl (by decide)⟩
  case lpar =>
    refine Claim.step (by rw [hk]; decide) ?_
    rw [hk]
    refine Claim.bind (ih 0 _ ks.tail (by decide) (h.paren hp) (openAt_paren ho)) ?_
    rintro a r - ⟨q, hs, -, hst⟩
    have h8 := Shape.paren (hs.down (Nat.zero_le _))
    have hv := h.fill h8 f8
    refine (claim_expect (by decide) (by simpa using hv) fun hne => ?_).mono ?_
    · obtain ⟨u, o, e, h'⟩ := shape_append_last (w := pre ++ [Kind.lpar]) hs
      refine .unclosed e (h'.imp id fun h => h.2) (hst.elim id fun hst => hst.elim (fun h => absurd h hne) fun hst => ?_)
      have := tokenPrecedence_pos hst.1
      omega
    rintro b r' - rfl
    exact ⟨8, h8, by decide, .inl (by decide)⟩
  case id =>
    by_cases hl : hd ks.tail = .lpar
    · rw [if_pos hl]
      refine Claim.step (by rw [hk]; decide) ?_
      refine Claim.step (by rw [hl]; decide) ?_
      rw [hk, hl]
      have hv := h.fill Shape.address f8
      have e1 : pre ++ [Kind.id, .lpar, .string, .rpar] = pre ++ [.id] ++ [.lpar] ++ [.string] ++ [.rpar] := by simp
      rw [e1] at hv
      refine Claim.bind (Claim.bind (ok' := fun a _ => a = [.string, .rpar]) (claim_expect (by decide) hv.of_append
        fun _ => .literal (u := pre) (by simp)) ?_) ?_
      · rintro a r - rfl
        refine (claim_expect (by decide) hv fun _ => .close rfl).mono ?_
        rintro b r' - rfl
        rfl
      · rintro a r - rfl
        unfold rCheck
        by_cases hb : bad r.length
        · rw [if_pos hb]
          exact ⟨[], rfl, by simpa using hv⟩
        · rw [if_neg hb]
          exact ⟨[], rfl, 8, Shape.address, by decide, .inl (by decide)⟩
    · rw [if_neg hl]
      refine Claim.step (by rw [hk]; decide) ?_
      rw [hk]
      refine (claim_dots (w := pre) _ ks.tail [.id] (Nat.le_refl _) .one fun b hb => h.fill (Shape.name hb) f8).mono ?_
      intro a r _ ha
      exact ⟨8, Shape.name ha, by decide, .inl (by decide)⟩
  all_goals exact bad'

theorem claim_loop {above : Nat → List Kind → RO} {ext : List Kind → RO} {p : Nat} {pre : List Kind} (hp : p ≤ 6)
    (h : Hole p pre) (iha : AboveClaim above)
    (ihe : ∀ left q ks, Shape q left → Fits p q → NextK q (hd ks) →
      Claim (pre ++ left) ks (fun a r => ∃ q, Shape q (left ++ a) ∧ Fits0 p q ∧ StopK p (hd r)) (ext ks))
    {left : List Kind} {q : Nat} {ks : List Kind} (hs : Shape q left) (hf : Fits p q) (hn : NextK q (hd ks)) :
    Claim (pre ++ left) ks (fun a r => ∃ q, Shape q (left ++ a) ∧ Fits0 p q ∧ StopK p (hd r)) (rLoop above ext p ks) := by
  have hq1 : 1 ≤ q := by unfold Fits at hf; omega
  have hf0 : Fits0 p q := .inr hf
  have hvl : Viable (pre ++ left) := h.fill hs hf0
  have here : StopK p (hd ks) →
      Claim (pre ++ left) ks (fun a r => ∃ q, Shape q (left ++ a) ∧ Fits0 p q ∧ StopK p (hd r)) (RO.ok ks) :=
    fun hst => ⟨[], rfl, q, by rw [List.append_nil]; exact hs, hf0, hst⟩
  unfold rLoop
  by_cases h1 : hd ks = .endOfInput ∨ hd ks = .rpar
  · rw [if_pos h1]
    exact here (h1.elim .inl fun h => .inr (.inl h))
  rw [if_neg h1]
  by_cases h2 : ¬ isExtension (hd ks) = true
  · rw [if_neg h2]
    have hq : 7 ≤ q := by
      rcases hn with hn | hn | hn | hn
      · exact hn
      · exact absurd (.inl hn) h1
      · exact absurd (.inr hn) h1
      · exact absurd hn.1 h2
    refine ⟨[], rfl, by rw [List.append_nil]; exact hvl, .inr ⟨by decide, by decide, ?_⟩, ?_⟩
    · intro k hk hnd
      rw [List.append_nil]
      simp only [extensionKinds, List.mem_cons, List.not_mem_nil, or_false] at hk
      simp only [Doubtful, List.mem_cons, List.not_mem_nil, or_false] at hnd
      have hc : k = .doubleColon ∨ Conn k := by
        unfold Conn
        rcases hk with rfl | rfl | rfl | rfl | rfl | rfl | rfl | rfl | rfl | rfl | rfl | rfl | rfl <;> simp_all
      rcases hc with rfl | hc
      · have := h.fill (Shape.field (hs.down hq)) (by unfold Fits0 Fits; omega)
        have e : pre ++ (left ++ [Kind.doubleColon, .id]) = (pre ++ left ++ [.doubleColon]) ++ [.id] := by simp
        rw [e] at this
        exact this.of_append
      · exact h.extend hs hf0 hq1 hc
    · rw [List.append_nil]
      obtain ⟨u, o, e, h' | h'⟩ := shape_append_last (w := pre) hs
      · exact .next e h' (not_next h1 h2)
      · omega
  rw [Classical.not_not] at h2
  rw [if_pos h2]
  have hlev := hn.level h2
  have hne : hd ks ≠ .endOfInput := fun h => h1 (.inl h)
  by_cases h3 : p = tokenPrecedence (hd ks) ∧ tokenAssociativity (hd ks) = .none
  · rw [if_pos h3]
    have hd' : hd ks ≠ .doubleColon := by intro e; rw [e] at h3; exact absurd h3.2 (by decide)
    obtain ⟨op, l, hi, _, hl⟩ := infix_of h2 hd'
    have hl' : l = tokenPrecedence (hd ks) + 1 := by
      rcases hl with hl | hl
      · rw [h3.2] at hl; exact absurd hl.2 (by decide)
      · exact hl.1
    subst hl'
    rw [← h3.1] at hi
    have h25 : p = 2 ∨ p = 5 := by
      generalize hd ks = k at hi
      cases hi <;> simp
    obtain ⟨u, v, e, hv⟩ := h.close h25 hs hf hi
    refine ⟨[], rfl, by rw [List.append_nil]; exact hvl, op, p, u, v, hi, by rw [List.append_nil, e], hv, ?_⟩
    rw [List.append_nil]
    obtain ⟨u, o, e, h' | h'⟩ := shape_append_last (w := pre) hs
    · exact ⟨u, o, e, h'⟩
    · omega
  rw [if_neg h3]
  by_cases h4 : p > tokenPrecedence (hd ks) ∨ (p = tokenPrecedence (hd ks) ∧ tokenAssociativity (hd ks) = .left)
  · rw [if_pos h4]
    exact here (.inr (.inr ⟨h2, h4.elim (fun h => .inl h) fun h => .inr ⟨h.1.symm, h.2⟩⟩))
  rw [if_neg h4]
  have hassoc : tokenAssociativity (hd ks) ≠ .right := by
    generalize hd ks = kd; cases kd <;> decide
  have hlt : p < tokenPrecedence (hd ks) := by
    rcases Nat.lt_trichotomy p (tokenPrecedence (hd ks)) with h | h | h
    · exact h
    · exfalso
      cases ha : tokenAssociativity (hd ks) with
      | left => exact h4 (.inr ⟨h, ha⟩)
      | right => exact hassoc ha
      | none => exact h3 ⟨h, ha⟩
    · exact absurd (.inl h) h4
  refine Claim.step hne ?_
  by_cases h5 : hd ks = .semicolon ∧ (hd ks.tail = .endOfInput ∨ hd ks.tail = .rpar)
  · rw [if_pos h5, h5.1]
    have hp0 : p = 0 := by rw [h5.1] at hlt; simp [tokenPrecedence] at hlt; exact hlt
    exact ⟨[], rfl, 0, Shape.trailing (hs.down hq1), .inl hp0, h5.2.elim .inl fun h => .inr (.inl h)⟩
  rw [if_neg h5]
  by_cases h6 : hd ks = .doubleColon
  · rw [if_pos h6, h6]
    have hq : 7 ≤ q := by rw [h6] at hlev; simp [tokenPrecedence] at hlev; omega
    have hs' := Shape.field (hs.down hq)
    have f7 : Fits p 7 := by unfold Fits; omega
    have hv := h.fill hs' (.inr f7)
    refine Claim.bind (claim_expect (by decide) (by simpa using hv) fun _ => .field (.inr rfl)) ?_
    rintro a r - rfl
    have := ihe _ 7 r hs' f7 (.inl (by decide))
    simpa using this
  rw [if_neg h6]
  obtain ⟨op, l, hi, _, hl⟩ := infix_of h2 h6
  have hlq : l ≤ q := by
    rcases hl with ⟨hl, ha⟩ | ⟨hl, ha⟩
    · omega
    · rw [ha] at hlev; simp at hlev; omega
  have h15 := (infix_inv hi)
  refine Claim.bind (iha (tokenPrecedence (hd ks)) _ ks.tail (by omega) (h.binary hs hi hlt hlq) ?_) ?_
  · rcases infix_operator hi with ho | ho
    · exact openAt_snoc ho
    · rw [ho]
      refine ⟨.semicolon, fun _ _ => ⟨fun e => h5 ⟨ho, .inl e⟩, fun e => h5 ⟨ho, .inr e⟩⟩⟩
  rintro a r - ⟨q', hs', hf', hst⟩
  have hb := Shape.bin hi (hs.down hlq) (hs'.down (by unfold Fits0 Fits at hf'; omega))
  have := ihe _ _ r hb (.inl hlt) (.inr hst)
  simpa using this

/-- The outcomes of the recogniser. -/
theorem r_claim (bad : Nat → Prop) : ∀ f, AboveClaim (rAbove bad f) ∧
    ∀ p pre left q ks, p ≤ 6 → Hole p pre → Shape q left → Fits p q → NextK q (hd ks) →
      Claim (pre ++ left) ks (fun a r => ∃ q, Shape q (left ++ a) ∧ Fits0 p q ∧ StopK p (hd r)) (rExt bad f p ks)
  | 0 => ⟨(fun _ _ _ _ _ _ => by rw [rAbove]; trivial), (fun _ _ _ _ _ _ _ _ _ _ => by rw [rExt]; trivial)⟩
  | f + 1 => by
    obtain ⟨ih1, ih2⟩ := r_claim bad f
    constructor
    · intro p pre ks hp h ho
      rw [rAbove_succ]
      refine Claim.bind (claim_head ih1 hp h ho) ?_
      rintro a r - ⟨q, hs, hq, hn⟩
      exact ih2 p pre a q r hp h hs (by unfold Fits; omega) hn
    · intro p pre left q ks hp h hs hf hn
      rw [rExt_succ]
      exact claim_loop hp h ih1 (fun left q ks hs hf hn => ih2 p pre left q ks hp h hs hf hn) hs hf hn

end P4C
