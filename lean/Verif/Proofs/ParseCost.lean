import Verif.Model.ParseCost
import Verif.Spec.ParseCost
import Verif.Proofs.ParseTotal
import Verif.Proofs.Cost2

/-!
# The cost of reading constraints
-/

namespace P4C

open Spec

/-! ### Metered results -/

@[simp] theorem Metered.res_bind {α β : Type} (x : Metered α) (f : α → Metered β) :
    (x >>= f).res = x.res >>= fun a => (f a).res := by
  obtain ⟨n, d, c, r⟩ := x
  cases r <;> rfl

@[simp] theorem res_lift {α : Type} (r : Res α) : (lift r).res = r := rfl

@[simp] theorem res_enter {α : Type} (x : Metered α) : (enter x).res = x.res := rfl

@[simp] theorem res_copy (e : Expr) : (copy e).res = .ok e := rfl

@[simp] theorem res_iteration : iteration.res = .ok () := rfl

theorem Metered.bind_ok {α β : Type} {x : Metered α} {a : α} (h : x.res = .ok a) (f : α → Metered β) :
    (x >>= f) = ⟨x.calls + (f a).calls, max x.depth (f a).depth, x.copied + (f a).copied, (f a).res⟩ := by
  obtain ⟨n, d, c, r⟩ := x
  cases h
  rfl

/-- Not a success. -/
def Stops {α : Type} (x : Metered α) : Prop := ∀ a, x.res ≠ .ok a

theorem Metered.bind_stops {α β : Type} {x : Metered α} (h : Stops x) (f : α → Metered β) :
    Stops (x >>= f) ∧ (x >>= f).calls = x.calls ∧ (x >>= f).depth = x.depth ∧ (x >>= f).copied = x.copied := by
  obtain ⟨n, d, c, r⟩ := x
  cases r with
  | ok a => exact absurd rfl (h a)
  | _ => exact ⟨nofun, rfl, rfl, rfl⟩

@[simp] theorem lift_bind_ok {α β : Type} (a : α) (f : α → Metered β) : (lift (.ok a) >>= f) = f a := by
  rw [Metered.bind_ok (a := a) rfl]
  simp only [lift, Nat.zero_add, Nat.zero_max]

/-! ### Same results -/

theorem res_parseDotsC (src : ConstraintSource) : ∀ (f : Nat) (ids : List Token) (s : Stream),
    (parseDotsC src f ids s).res = parseDots src f ids s
  | 0, _, _ => rfl
  | f + 1, ids, s => by
    unfold parseDotsC parseDots
    simp only [Metered.res_bind, res_iteration, Res.ok_bind]
    split
    · simp only [Metered.res_bind, res_lift, res_parseDotsC src f]
    · rfl

/-- The part of `parseAboveC` before the loop. -/
def parseHeadC (sys : Sys) (k : ConstraintKind) (src : ConstraintSource)
    (rec : Nat → Stream → Metered (Expr × Stream)) (s0 : Stream) : Metered (Expr × Stream) :=
  let t := s0.peek
  let s := s0.next
  match t.kind with
  | .true_ | .false_ => lift (makeBooleanConstant t) >>= fun e => lift (.ok (e, s))
  | .binary | .octary | .decimal | .hexadec => lift (makeIntegerConstant t) >>= fun e => lift (.ok (e, s))
  | .id =>
    if s.peek.kind = .lpar then
      lift (expectTokenKind .string src s.next) >>= fun r =>
      lift (expectTokenKind .rpar src r.2) >>= fun q =>
      lift (makeNetworkAddress sys t.text r.1.text t.start q.1.stop) >>= fun e => lift (.ok (e, q.2))
    else
      parseDotsC src (s.rest.length + 1) [t] s >>= fun r => lift (makeVariable r.1 k) >>= fun e => lift (.ok (e, r.2))
  | .doubleColon => lift (expectTokenKind .id src s) >>= fun r =>
      lift (makeAttributeAccess t r.1) >>= fun e => lift (.ok (e, r.2))
  | .bang => rec 6 s >>= fun r => copy r.1 >>= fun e => lift (makeBooleanNegation t e) >>= fun e => lift (.ok (e, r.2))
  | .minus => rec 6 s >>= fun r => copy r.1 >>= fun e =>
      lift (makeArithmeticNegation t e) >>= fun e => lift (.ok (e, r.2))
  | .lpar => rec 0 s >>= fun r => lift (expectTokenKind .rpar src r.2) >>= fun q => lift (.ok (r.1, q.2))
  | _ => lift (parseError t src)

theorem parseAboveC_succ (sys : Sys) (k : ConstraintKind) (src : ConstraintSource) (f p : Nat) (s : Stream) :
    parseAboveC sys k src (f + 1) p s =
      enter (parseHeadC sys k src (parseAboveC sys k src f) s >>= fun r => parseExtC sys k src f p r.1 r.2) := by
  rw [parseAboveC]
  unfold parseHeadC
  rfl

theorem parseExtC_succ (sys : Sys) (k : ConstraintKind) (src : ConstraintSource) (f p : Nat) (e : Expr) (s : Stream) :
    parseExtC sys k src (f + 1) p e s = (iteration >>= fun _ =>
      if s.peek.kind = .endOfInput ∨ s.peek.kind = .rpar then lift (.ok (e, s))
      else if isExtension s.peek.kind then
        if p = tokenPrecedence s.peek.kind ∧ tokenAssociativity s.peek.kind = .none then lift (parseError s.peek src)
        else if p > tokenPrecedence s.peek.kind ∨
            (p = tokenPrecedence s.peek.kind ∧ tokenAssociativity s.peek.kind = .left) then lift (.ok (e, s))
        else if s.peek.kind = .semicolon ∧ (s.next.peek.kind = .endOfInput ∨ s.next.peek.kind = .rpar) then
          lift (.ok (e, s.next))
        else if s.peek.kind = .doubleColon then
          lift (expectTokenKind .id src s.next) >>= fun r => copy e >>= fun e => lift (makeFieldAccess e r.1) >>= fun e =>
            parseExtC sys k src f p e r.2
        else parseAboveC sys k src f (tokenPrecedence s.peek.kind) s.next >>= fun r => copy e >>= fun e =>
          copy r.1 >>= fun a => lift (makeBinaryExpression s.peek e a) >>= fun e => parseExtC sys k src f p e r.2
      else lift (parseError s.peek src)) := by
  rw [parseExtC]

theorem res_parseHeadC {sys : Sys} {k : ConstraintKind} {src : ConstraintSource}
    {rec : Nat → Stream → Metered (Expr × Stream)} {rec' : Nat → Stream → Res (Expr × Stream)}
    (h : ∀ p s, (rec p s).res = rec' p s) (s : Stream) :
    (parseHeadC sys k src rec s).res = parseHead sys k src rec' s := by
  unfold parseHeadC parseHead
  simp only
  split <;> simp only [*, Metered.res_bind, res_lift, res_copy, Res.ok_bind]
  split <;> simp only [Metered.res_bind, res_lift, res_parseDotsC]

theorem res_parseC (sys : Sys) (k : ConstraintKind) (src : ConstraintSource) : ∀ f,
    (∀ p s, (parseAboveC sys k src f p s).res = parseAbove sys k src f p s) ∧
    (∀ p e s, (parseExtC sys k src f p e s).res = parseExt sys k src f p e s)
  | 0 => ⟨fun _ _ => by rw [parseAboveC, parseAbove]; rfl, fun _ _ _ => by rw [parseExtC, parseExt]; rfl⟩
  | f + 1 => by
    obtain ⟨h1, h2⟩ := res_parseC sys k src f
    refine ⟨fun p s => ?_, fun p e s => ?_⟩
    · rw [parseAboveC_succ, parseAbove_succ]
      simp only [res_enter, Metered.res_bind, res_parseHeadC h1, h2]
    · rw [parseExtC_succ, parseExt_succ]
      simp only [Metered.res_bind, res_iteration, Res.ok_bind]
      repeat' split
      all_goals simp only [Metered.res_bind, res_lift, res_copy, Res.ok_bind, h1, h2]

theorem res_parseTokensC (sys : Sys) (k : ConstraintKind) (ts : List Token) (src : ConstraintSource) :
    (parseTokensC sys k ts src).res = parseTokens sys k ts src := by
  unfold parseTokensC parseTokens
  simp only [Metered.res_bind, res_lift, (res_parseC sys k src _).1]

theorem res_inferC (src : ConstraintSource) (sc : Scope) (e : Expr) :
    (inferAndCheckC src sc e).res = inferAndCheck src sc e := by
  induction e with
  | boolConst | intConst | key | actionParam | attr | notSet | typeCast => unfold inferAndCheckC; rfl
  | boolNeg i e ih | arithNeg i e ih =>
    unfold inferAndCheckC inferAndCheck
    simp only [res_enter, Metered.res_bind, ih]
    congr 1
    funext a
    split <;> rfl
  | field i e f ih =>
    unfold inferAndCheckC inferAndCheck
    simp only [res_enter, Metered.res_bind, ih]
    congr 1
    funext a
    cases fieldTypeOfCompositeType a.ty f <;> rfl
  | bin i op l r ihl ihr =>
    unfold inferAndCheckC inferAndCheck
    simp only [res_enter, Metered.res_bind, ihl, ihr]
    congr 1
    funext a
    congr 1
    funext b
    cases op <;> simp only [Metered.res_bind, res_lift] <;> (repeat' split) <;> first | rfl | (congr 1; funext x; split <;> rfl)

/-! ### Trees -/

theorem messages_eq (e : Expr) : messages e = nodes e := by
  induction e with
  | boolConst | intConst | key | actionParam | attr | notSet => rfl
  | boolNeg i e ih | arithNeg i e ih | field i e f ih | typeCast i e ih => simp only [nodes, messages, ih]; omega
  | bin i op l r ihl ihr => simp only [nodes, messages, ihl, ihr]; omega

theorem depths_succ (e : Expr) : ∀ d, depths (d + 1) e = depths d e + nodes e := by
  induction e with
  | boolConst | intConst | key | actionParam | attr | notSet => intro d; rfl
  | boolNeg i e ih | arithNeg i e ih | field i e f ih | typeCast i e ih =>
    intro d
    simp only [nodes, depths, ih]
    omega
  | bin i op l r ihl ihr =>
    intro d
    simp only [nodes, depths, ihl, ihr]
    omega

theorem depths_le (e : Expr) : 2 * depths 0 e + nodes e ≤ nodes e * nodes e := by
  induction e with
  | boolConst | intConst | key | actionParam | attr | notSet => exact Nat.le_refl _
  | boolNeg i e ih | arithNeg i e ih | field i e f ih | typeCast i e ih =>
    simp only [nodes, depths, depths_succ]
    have := Nat.mul_add (1 + nodes e) 1 (nodes e)
    have := Nat.add_mul 1 (nodes e) (nodes e)
    omega
  | bin i op l r ihl ihr =>
    simp only [nodes, depths, depths_succ]
    generalize nodes l = a at *
    generalize nodes r = b at *
    have h : (1 + a + b) * (1 + a + b) = a * a + b * b + 2 * (a * b) + 2 * a + 2 * b + 1 := by
      simp only [Nat.mul_add, Nat.add_mul, Nat.mul_comm b a]
      omega
    have := Nat.zero_le (a * b)
    omega

theorem height_le_nodes (e : Expr) : height e ≤ nodes e := by
  induction e with
  | boolConst | intConst | key | actionParam | attr | notSet => exact Nat.le_refl _
  | boolNeg i e ih | arithNeg i e ih | field i e f ih | typeCast i e ih => simp only [nodes, height]; omega
  | bin i op l r ihl ihr => simp only [nodes, height]; omega

/-! ### Parsing -/

/-- What parsing `m` tokens costs. On success, all but the tokens left have been read. -/
structure CostAbove (m : Nat) (x : Metered (Expr × Stream)) : Prop where
  ok : ∀ e s', x.res = .ok (e, s') → ∃ c, 1 ≤ c ∧ s'.rest.length + c = m ∧ x.calls ≤ 3 * c ∧ x.depth ≤ c ∧ nodes e ≤ c ∧
    x.copied = depths 0 e ∧ prefixes e < x.depth
  stops : Stops x → x.calls ≤ 3 * m + 1 ∧ x.depth ≤ m + 1 ∧ 2 * x.copied ≤ m * m

/-- What the loop costs that extends `ast`. -/
structure CostExt (m : Nat) (ast : Expr) (x : Metered (Expr × Stream)) : Prop where
  ok : ∀ e s', x.res = .ok (e, s') → ∃ c, s'.rest.length + c = m ∧ x.calls ≤ 3 * c + 1 ∧ x.depth ≤ c ∧
    nodes e ≤ nodes ast + c ∧ x.copied + depths 0 ast = depths 0 e ∧ prefixes e ≤ prefixes ast
  stops : Stops x → x.calls ≤ 3 * m + 1 ∧ x.depth ≤ m ∧
    2 * x.copied + 2 * depths 0 ast ≤ (nodes ast + m) * (nodes ast + m)

/-- What the part before the loop costs. -/
structure CostHead (m : Nat) (x : Metered (Expr × Stream)) : Prop where
  ok : ∀ e s', x.res = .ok (e, s') → ∃ c, 1 ≤ c ∧ s'.rest.length + c = m ∧ x.calls + 2 ≤ 3 * c ∧ x.depth + 1 ≤ c ∧
    nodes e ≤ c ∧ x.copied = depths 0 e ∧ prefixes e ≤ x.depth
  stops : Stops x → x.calls ≤ 3 * m ∧ x.depth ≤ m ∧ 2 * x.copied ≤ m * m

theorem ok_or_stops {α : Type} (x : Metered α) : (∃ a, x.res = .ok a) ∨ Stops x := by
  obtain ⟨n, d, c, r⟩ := x
  cases r with
  | ok a => exact .inl ⟨a, rfl⟩
  | _ => exact .inr nofun

theorem dotsC_cost (src : ConstraintSource) : ∀ (f : Nat) (ids : List Token) (s : Stream),
    (parseDotsC src f ids s).depth = 0 ∧ (parseDotsC src f ids s).copied = 0 ∧
    (∀ r, (parseDotsC src f ids s).res = .ok r → ∃ c, r.2.rest.length + c = s.rest.length ∧
      (parseDotsC src f ids s).calls ≤ c + 1) ∧
    (Stops (parseDotsC src f ids s) → (parseDotsC src f ids s).calls ≤ s.rest.length)
  | 0, _, _ => ⟨rfl, rfl, nofun, fun _ => Nat.zero_le _⟩
  | f + 1, ids, s => by
    unfold parseDotsC
    rw [Metered.bind_ok (a := ()) rfl]
    split
    · rename_i hd
      have h0 : s.rest.length = s.next.rest.length + 1 := by
        rw [peek_of_ne_end (s := s) (by rw [hd]; decide)]; rfl
      cases he : expectTokenKind .id src s.next with
      | ok r =>
        obtain ⟨hk, rfl⟩ := expect_ok he
        have h1 : s.next.rest.length = s.next.next.rest.length + 1 := by
          rw [peek_of_ne_end (s := s.next) (by rw [hk]; decide)]; rfl
        obtain ⟨i1, i2, i3, i4⟩ := dotsC_cost src f (ids ++ [s.next.peek]) s.next.next
        simp only [lift_bind_ok]
        refine ⟨by simp only [i1, iteration]; rfl, by simp only [i2, iteration], fun r hr => ?_, fun hr => ?_⟩
        · obtain ⟨c, h2, h3⟩ := i3 r hr
          exact ⟨c + 2, by omega, by simp only [iteration]; omega⟩
        · have := i4 hr
          simp only [iteration]
          omega
      | _ =>
        refine ⟨rfl, rfl, nofun, fun _ => ?_⟩
        show 1 + 0 ≤ _
        omega
    · exact ⟨rfl, rfl, fun r hr => ⟨0, by cases hr; rfl, Nat.le_refl _⟩, fun hr => absurd rfl (hr _)⟩

theorem square_le {a b : Nat} (h : a ≤ b) : a * a ≤ b * b := Nat.mul_le_mul h h

theorem depths_le_of {e : Expr} {c : Nat} (h : nodes e ≤ c) : 2 * depths 0 e ≤ c * c := by
  have := depths_le e
  have := square_le h
  omega

/-- A result that costs nothing. -/
theorem costHead_lift {m : Nat} {r : Res (Expr × Stream)}
    (h : ∀ e s', r = .ok (e, s') → 1 ≤ m - s'.rest.length ∧ s'.rest.length ≤ m ∧ nodes e = 1 ∧ depths 0 e = 0 ∧ prefixes e = 0) :
    CostHead m (lift r) where
  ok e s' he := by
    obtain ⟨h1, h2, h3, h4, h5⟩ := h e s' he
    exact ⟨m - s'.rest.length, h1, by omega, by simp only [lift]; omega, by simp only [lift]; omega, by omega, by
      simp only [lift]; omega, by omega⟩
  stops _ := ⟨Nat.zero_le _, Nat.zero_le _, Nat.zero_le _⟩

theorem lift_bind {α β : Type} (r : Res α) (f : α → Res β) : (lift r >>= fun a => lift (f a)) = lift (r >>= f) := by
  cases r <;> rfl

theorem address_const {sys : Sys} {t x : Str} {a b : Loc} {e : Expr} (h : makeNetworkAddress sys t x a b = .ok e) :
    ∃ i z, e = .intConst i z := by
  unfold makeNetworkAddress at h
  repeat' split at h
  all_goals
    simp only [Res.bind_eq_ok] at h
    first
    | (obtain ⟨_, -, _, -, h⟩ := h; cases h; exact ⟨_, _, rfl⟩)
    | (obtain ⟨_, h, -⟩ := h; cases h)

theorem costHead {sys : Sys} {k : ConstraintKind} {src : ConstraintSource}
    {rec : Nat → Stream → Metered (Expr × Stream)} (ih : ∀ p s, CostAbove s.rest.length (rec p s)) (s : Stream) :
    CostHead s.rest.length (parseHeadC sys k src rec s) := by
  have len : ∀ {s : Stream}, s.peek.kind ≠ .endOfInput → s.rest.length = s.next.rest.length + 1 := by
    intro s h
    rw [peek_of_ne_end h]
    rfl
  have boolCase : s.peek.kind = .true_ ∨ s.peek.kind = .false_ →
      CostHead s.rest.length (lift (makeBooleanConstant s.peek) >>= fun e => lift (.ok (e, s.next))) := by
    intro hk
    have := len (s := s) (by rcases hk with hk | hk <;> rw [hk] <;> decide)
    unfold makeBooleanConstant
    rw [if_pos hk, lift_bind_ok]
    refine costHead_lift fun e s' h => ?_
    cases h
    exact ⟨by omega, by omega, rfl, rfl, rfl⟩
  have numCase : s.peek.kind ≠ .endOfInput →
      CostHead s.rest.length (lift (makeIntegerConstant s.peek) >>= fun e => lift (.ok (e, s.next))) := by
    intro hk
    have := len hk
    rw [lift_bind]
    refine costHead_lift fun e s' h => ?_
    unfold makeIntegerConstant at h
    cases hc : convertNumeral s.peek.kind s.peek.text <;> rw [hc] at h <;> cases h
    exact ⟨by omega, by omega, rfl, rfl, rfl⟩
  have unCase : ∀ {mk : Expr → Res Expr}, s.peek.kind ≠ .endOfInput →
      (∀ e, ∃ e', mk e = .ok e' ∧ nodes e' = 1 + nodes e ∧ depths 0 e' = depths 0 e + nodes e ∧
        prefixes e' = 1 + prefixes e) →
      CostHead s.rest.length
        (rec 6 s.next >>= fun r => copy r.1 >>= fun e => lift (mk e) >>= fun e => lift (.ok (e, r.2))) := by
    intro mk hk hmk
    have hl := len hk
    have hr := ih 6 s.next
    rcases ok_or_stops (rec 6 s.next) with ⟨⟨a, s1⟩, ha⟩ | hs
    · obtain ⟨c, h1, h2, h3, h4, h5, h6, h0⟩ := hr.ok _ _ ha
      obtain ⟨e', g1, g2, g3, g4⟩ := hmk a
      rw [Metered.bind_ok ha, Metered.bind_ok (a := a) rfl]
      simp only [g1, lift_bind_ok]
      constructor
      · intro e t he
        cases he
        refine ⟨c + 1, by omega, by omega, ?_, ?_, by omega, ?_, ?_⟩
        · simp only [copy, lift]; omega
        · simp only [copy, lift]; omega
        rotate_left
        · simp only [copy, lift]; omega
        · simp only [copy, lift, messages_eq]; omega
      · intro h
        exact absurd rfl (h _)
    · obtain ⟨b1, b2, b3, b4⟩ := Metered.bind_stops hs (fun r => copy r.1 >>= fun e => lift (mk e) >>= fun e => lift (.ok (e, r.2)))
      obtain ⟨c1, c2, c3⟩ := hr.stops hs
      constructor
      · intro e t he
        exact absurd he (b1 _)
      · intro _
        rw [b2, b3, b4]
        have := square_le (a := s.next.rest.length) (b := s.rest.length) (by omega)
        exact ⟨by omega, by omega, by omega⟩
  unfold parseHeadC
  simp only
  split
  · exact boolCase (.inl (by assumption))
  · exact boolCase (.inr (by assumption))
  · rename_i hk; exact numCase (by rw [hk]; decide)
  · rename_i hk; exact numCase (by rw [hk]; decide)
  · rename_i hk; exact numCase (by rw [hk]; decide)
  · rename_i hk; exact numCase (by rw [hk]; decide)
  · rename_i hk
    have hl := len (s := s) (by rw [hk]; decide)
    split
    · rename_i hp
      have hl1 := len (s := s.next) (by rw [hp]; decide)
      cases h1 : expectTokenKind .string src s.next.next with
      | ok r =>
        obtain ⟨k1, rfl⟩ := expect_ok h1
        have hl2 := len (s := s.next.next) (by rw [k1]; decide)
        rw [lift_bind_ok]
        cases h2 : expectTokenKind .rpar src s.next.next.next with
        | ok q =>
          obtain ⟨k2, rfl⟩ := expect_ok h2
          have hl3 := len (s := s.next.next.next) (by rw [k2]; decide)
          rw [lift_bind_ok, lift_bind]
          refine costHead_lift fun e s' h => ?_
          rw [Res.bind_eq_ok] at h
          obtain ⟨a, h3, h4⟩ := h
          obtain ⟨i, z, rfl⟩ := address_const h3
          cases h4
          dsimp only
          exact ⟨by omega, by omega, rfl, rfl, rfl⟩
        | _ => exact ⟨nofun, fun _ => ⟨Nat.zero_le _, Nat.zero_le _, Nat.zero_le _⟩⟩
      | _ => exact ⟨nofun, fun _ => ⟨Nat.zero_le _, Nat.zero_le _, Nat.zero_le _⟩⟩
    · obtain ⟨d1, d2, d3, d4⟩ := dotsC_cost src (s.next.rest.length + 1) [s.peek] s.next
      rcases ok_or_stops (parseDotsC src (s.next.rest.length + 1) [s.peek] s.next) with ⟨r, hr⟩ | hs
      · obtain ⟨c, h1, h2⟩ := d3 r hr
        rw [Metered.bind_ok hr]
        cases hv : makeVariable r.1 k with
        | ok v =>
          have hn : nodes v = 1 ∧ depths 0 v = 0 ∧ prefixes v = 0 := by
            unfold makeVariable at hv
            split at hv
            · cases hv
            · split at hv
              · cases k <;> cases hv <;> exact ⟨rfl, rfl, rfl⟩
              · cases hv
          rw [lift_bind_ok]
          constructor
          · intro e t he
            cases he
            refine ⟨c + 1, by omega, by omega, ?_, ?_, by omega, ?_, ?_⟩
            · simp only [lift]; omega
            · simp only [lift]; omega
            · simp only [lift]; omega
            · simp only [lift]; omega
          · intro h
            exact absurd rfl (h _)
        | _ =>
          refine ⟨nofun, fun _ => ⟨?_, ?_, ?_⟩⟩
          · show _ + 0 ≤ _; omega
          · show max _ 0 ≤ _; omega
          · show 2 * (_ + 0) ≤ _; omega
      · obtain ⟨b1, b2, b3, b4⟩ := Metered.bind_stops hs (fun r => lift (makeVariable r.1 k) >>= fun e => lift (.ok (e, r.2)))
        have := d4 hs
        refine ⟨fun e t he => absurd he (b1 _), fun _ => ?_⟩
        rw [b2, b3, b4, d1, d2]
        exact ⟨by omega, by omega, by omega⟩
  · rename_i hk
    have hl := len (s := s) (by rw [hk]; decide)
    cases h1 : expectTokenKind .id src s.next with
    | ok r =>
      obtain ⟨k1, rfl⟩ := expect_ok h1
      have hl2 := len (s := s.next) (by rw [k1]; decide)
      unfold makeAttributeAccess
      rw [lift_bind_ok, lift_bind_ok]
      refine costHead_lift fun e s' h => ?_
      cases h
      dsimp only
      exact ⟨by omega, by omega, rfl, rfl, rfl⟩
    | _ => exact ⟨nofun, fun _ => ⟨Nat.zero_le _, Nat.zero_le _, Nat.zero_le _⟩⟩
  · rename_i hk
    refine unCase (by rw [hk]; decide) fun e => ⟨.boolNeg (located s.peek.start e.stop) e, ?_, rfl, ?_, rfl⟩
    · simp only [makeBooleanNegation, hk, if_pos]
    · simp only [depths, depths_succ]; omega
  · rename_i hk
    refine unCase (by rw [hk]; decide) fun e => ⟨.arithNeg (located s.peek.start e.stop) e, ?_, rfl, ?_, rfl⟩
    · simp only [makeArithmeticNegation, hk, if_pos]
    · simp only [depths, depths_succ]; omega
  · rename_i hk
    have hl := len (s := s) (by rw [hk]; decide)
    have hr := ih 0 s.next
    rcases ok_or_stops (rec 0 s.next) with ⟨⟨a, s1⟩, ha⟩ | hs
    · obtain ⟨c, h1, h2, h3, h4, h5, h6, h0⟩ := hr.ok _ _ ha
      rw [Metered.bind_ok ha]
      cases hx : expectTokenKind .rpar src s1 with
      | ok q =>
        obtain ⟨k2, rfl⟩ := expect_ok hx
        have hl3 := len (s := s1) (by rw [k2]; decide)
        simp only [lift_bind_ok]
        constructor
        · intro e t he
          cases he
          refine ⟨c + 2, by omega, by omega, ?_, ?_, by omega, ?_, ?_⟩
          · simp only [lift]; omega
          · simp only [lift]; omega
          · simp only [lift]; omega
          · simp only [lift]; omega
        · intro h
          exact absurd rfl (h _)
      | _ =>
        have := depths_le_of h5
        have := square_le (a := c) (b := s.rest.length) (by omega)
        refine ⟨nofun, fun _ => ⟨?_, ?_, ?_⟩⟩
        · show _ + 0 ≤ _; omega
        · show max _ 0 ≤ _; omega
        · show 2 * (_ + 0) ≤ _; omega
    · obtain ⟨b1, b2, b3, b4⟩ := Metered.bind_stops hs (fun r => lift (expectTokenKind .rpar src r.2) >>= fun q => lift (.ok (r.1, q.2)))
      obtain ⟨c1, c2, c3⟩ := hr.stops hs
      refine ⟨fun e t he => absurd he (b1 _), fun _ => ?_⟩
      rw [b2, b3, b4]
      have := square_le (a := s.next.rest.length) (b := s.rest.length) (by omega)
      exact ⟨by omega, by omega, by omega⟩
  · refine costHead_lift fun e s' h => absurd h parseError_not_ok

theorem costExt {sys : Sys} {k : ConstraintKind} {src : ConstraintSource} {f : Nat}
    (ihA : ∀ p s, CostAbove s.rest.length (parseAboveC sys k src f p s))
    (ihE : ∀ p e s, CostExt s.rest.length e (parseExtC sys k src f p e s)) (p : Nat) (ast : Expr) (s : Stream) :
    CostExt s.rest.length ast (parseExtC sys k src (f + 1) p ast s) := by
  have hast := depths_le ast
  have stop : ∀ (r : Res (Expr × Stream)), (∀ a, r ≠ .ok a) → CostExt s.rest.length ast (iteration >>= fun _ => lift r) := by
    intro r hr
    rw [Metered.bind_ok (a := ()) rfl]
    refine ⟨fun e t h => absurd h (hr _), fun _ => ⟨?_, ?_, ?_⟩⟩
    · show 1 + 0 ≤ _; omega
    · exact Nat.zero_le _
    · have := depths_le_of (e := ast) (c := nodes ast + s.rest.length) (by omega)
      show 2 * 0 + _ ≤ _; omega
  have done : ∀ s' c, s'.rest.length + c = s.rest.length →
      CostExt s.rest.length ast (iteration >>= fun _ => lift (.ok (ast, s'))) := by
    intro s' c hc
    rw [Metered.bind_ok (a := ()) rfl]
    refine ⟨fun e t h => ?_, fun h => absurd rfl (h _)⟩
    cases h
    refine ⟨c, hc, ?_, ?_, by omega, ?_, Nat.le_refl _⟩
    · show 1 + 0 ≤ _; omega
    · exact Nat.zero_le _
    · show 0 + _ = _; omega
  -- An extension that reads `c` tokens, at the given cost, and makes `e`.
  have more : ∀ {s' : Stream} {e : Expr} {c : Nat} {y x : Metered (Expr × Stream)}, y = parseExtC sys k src f p e s' →
      s'.rest.length + c = s.rest.length → nodes e ≤ nodes ast + c → x.res = y.res → x.calls ≤ 3 * c + y.calls →
      x.depth ≤ max c y.depth → x.copied + depths 0 ast = depths 0 e + y.copied → prefixes e = 0 → CostExt s.rest.length ast x := by
    intro s' e c y x hy hc hn hres hcalls hdepth hcop hpre
    subst hy
    have hE := ihE p e s'
    constructor
    · intro e' t he
      rw [hres] at he
      obtain ⟨c', h1, h2, h3, h4, h5, h6⟩ := hE.ok _ _ he
      exact ⟨c + c', by omega, by omega, by omega, by omega, by omega, by omega⟩
    · intro h
      have h' : Stops (parseExtC sys k src f p e s') := fun a ha => h a (hres.trans ha)
      obtain ⟨h1, h2, h3⟩ := hE.stops h'
      have := square_le (a := nodes e + s'.rest.length) (b := nodes ast + s.rest.length) (by omega)
      exact ⟨by omega, by omega, by omega⟩
  rw [parseExtC_succ]
  split
  · exact done s 0 rfl
  · rename_i hend
    have hk : s.peek.kind ≠ .endOfInput := fun h => hend (.inl h)
    have hl : s.rest.length = s.next.rest.length + 1 := by rw [peek_of_ne_end hk]; rfl
    split
    · split
      · exact stop _ fun _ => parseError_not_ok
      · split
        · exact done s 0 rfl
        · split
          · exact done s.next 1 hl.symm
          · split
            · cases h1 : expectTokenKind .id src s.next with
              | ok r =>
                obtain ⟨k1, rfl⟩ := expect_ok h1
                have hl2 : s.next.rest.length = s.next.next.rest.length + 1 := by
                  rw [peek_of_ne_end (s := s.next) (by rw [k1]; decide)]; rfl
                have hm : makeFieldAccess ast s.next.peek = .ok (.field (located ast.start s.next.peek.stop) ast s.next.peek.text) := by
                  simp only [makeFieldAccess, k1, if_pos]
                simp only [lift_bind_ok]
                rw [Metered.bind_ok (a := ()) rfl, Metered.bind_ok (a := ast) rfl, hm, lift_bind_ok]
                refine more (s' := s.next.next) (c := 2) (e := .field (located ast.start s.next.peek.stop) ast s.next.peek.text) rfl (by omega) ?_ rfl ?_ ?_ ?_ rfl
                · simp only [nodes]; omega
                · simp only [iteration, copy]; omega
                · simp only [iteration, copy]; omega
                · simp only [iteration, copy, messages_eq, depths, depths_succ]; omega
              | err c => exact stop (.err c) nofun
              | crash => exact stop .crash nofun
              | oof => exact stop .oof nofun
            · have hr := ihA (tokenPrecedence s.peek.kind) s.next
              rcases ok_or_stops (parseAboveC sys k src f (tokenPrecedence s.peek.kind) s.next) with ⟨⟨a, s1⟩, ha⟩ | hs
              · obtain ⟨c, h1, h2, h3, h4, h5, h6, h0⟩ := hr.ok _ _ ha
                rw [Metered.bind_ok (a := ()) rfl, Metered.bind_ok ha, Metered.bind_ok (a := ast) rfl,
                  Metered.bind_ok (a := a) rfl]
                cases hm : makeBinaryExpression s.peek ast a with
                | ok e' =>
                  have : nodes e' = 1 + nodes ast + nodes a ∧
                      depths 0 e' = depths 0 ast + nodes ast + depths 0 a + nodes a ∧ prefixes e' = 0 := by
                    simp only [makeBinaryExpression, Res.bind_eq_ok] at hm
                    obtain ⟨op, -, hm⟩ := hm
                    cases hm
                    refine ⟨rfl, ?_, rfl⟩
                    simp only [depths, depths_succ]
                    omega
                  simp only [lift_bind_ok]
                  refine more (s' := s1) (c := c + 1) (e := e') rfl (by omega) (by omega) rfl ?_ ?_ ?_ this.2.2
                  · simp only [iteration, copy]; omega
                  · simp only [iteration, copy]; omega
                  · simp only [iteration, copy, messages_eq]; omega
                | _ =>
                  have h7 := depths_le a
                  have h8 := square_le (a := nodes ast + nodes a + 1) (b := nodes ast + s.rest.length) (by omega)
                  have h9 : (nodes ast + nodes a + 1) * (nodes ast + nodes a + 1) =
                      nodes ast * nodes ast + nodes a * nodes a + 2 * (nodes ast * nodes a) + 2 * nodes ast +
                        2 * nodes a + 1 := by
                    simp only [Nat.mul_add, Nat.add_mul, Nat.mul_comm (nodes a) (nodes ast)]
                    omega
                  have h10 := Nat.zero_le (nodes ast * nodes a)
                  refine ⟨nofun, fun _ => ⟨?_, ?_, ?_⟩⟩
                  · show 1 + (_ + (0 + (0 + 0))) ≤ _; omega
                  · show max 0 (max _ (max 0 (max 0 0))) ≤ _; omega
                  · show 2 * (0 + (_ + (messages ast + (messages a + 0)))) + _ ≤ _
                    rw [messages_eq, messages_eq]
                    omega
              · obtain ⟨b1, b2, b3, b4⟩ := Metered.bind_stops hs (fun r => copy ast >>= fun e => copy r.1 >>= fun a =>
                  lift (makeBinaryExpression s.peek e a) >>= fun e => parseExtC sys k src f p e r.2)
                obtain ⟨c1, c2, c3⟩ := hr.stops hs
                rw [Metered.bind_ok (a := ()) rfl]
                refine ⟨fun e t he => absurd he (b1 _), fun _ => ?_⟩
                dsimp only
                rw [b2, b3, b4]
                have h8 : (nodes ast + s.rest.length) * (nodes ast + s.rest.length) =
                    nodes ast * nodes ast + s.rest.length * s.rest.length + 2 * (nodes ast * s.rest.length) := by
                  simp only [Nat.mul_add, Nat.add_mul, Nat.mul_comm s.rest.length (nodes ast)]
                  omega
                have h9 := square_le (a := s.next.rest.length) (b := s.rest.length) (by omega)
                have h10 := Nat.zero_le (nodes ast * s.rest.length)
                simp only [iteration]
                exact ⟨by omega, by omega, by omega⟩
    · exact stop _ fun _ => parseError_not_ok

theorem costAbove {sys : Sys} {k : ConstraintKind} {src : ConstraintSource} {f : Nat}
    (ihA : ∀ p s, CostAbove s.rest.length (parseAboveC sys k src f p s))
    (ihE : ∀ p e s, CostExt s.rest.length e (parseExtC sys k src f p e s)) (p : Nat) (s : Stream) :
    CostAbove s.rest.length (parseAboveC sys k src (f + 1) p s) := by
  rw [parseAboveC_succ]
  have hH := costHead (sys := sys) (k := k) (src := src) ihA s
  rcases ok_or_stops (parseHeadC sys k src (parseAboveC sys k src f) s) with ⟨⟨a, s1⟩, ha⟩ | hs
  · obtain ⟨c, h1, h2, h3, h4, h5, h6, h0⟩ := hH.ok _ _ ha
    have hE := ihE p a s1
    rw [Metered.bind_ok ha]
    constructor
    · intro e t he
      obtain ⟨c', g1, g2, g3, g4, g5, g6⟩ := hE.ok e t he
      refine ⟨c + c', by omega, by omega, ?_, ?_, by omega, ?_, ?_⟩
      · simp only [enter]; omega
      · simp only [enter]; omega
      · simp only [enter]; omega
      · simp only [enter]; omega
    · intro h
      obtain ⟨g1, g2, g3⟩ := hE.stops h
      have := square_le (a := nodes a + s1.rest.length) (b := s.rest.length) (by omega)
      simp only [enter]
      exact ⟨by omega, by omega, by omega⟩
  · obtain ⟨b1, b2, b3, b4⟩ := Metered.bind_stops hs (fun r => parseExtC sys k src f p r.1 r.2)
    obtain ⟨c1, c2, c3⟩ := hH.stops hs
    refine ⟨fun e t he => absurd he (b1 _), fun _ => ?_⟩
    simp only [enter]
    rw [b2, b3, b4]
    exact ⟨by omega, by omega, by omega⟩

theorem costParse (sys : Sys) (k : ConstraintKind) (src : ConstraintSource) : ∀ f,
    (∀ p s, CostAbove s.rest.length (parseAboveC sys k src f p s)) ∧
    (∀ p e s, CostExt s.rest.length e (parseExtC sys k src f p e s))
  | 0 => by
    refine ⟨fun p s => ?_, fun p e s => ?_⟩
    · rw [parseAboveC]
      exact ⟨nofun, fun _ => ⟨Nat.zero_le _, Nat.zero_le _, Nat.zero_le _⟩⟩
    · rw [parseExtC]
      refine ⟨nofun, fun _ => ⟨Nat.zero_le _, Nat.zero_le _, ?_⟩⟩
      have := depths_le_of (e := e) (c := nodes e + s.rest.length) (by omega)
      show 2 * 0 + _ ≤ _
      omega
  | f + 1 =>
    have h := costParse sys k src f
    ⟨costAbove h.1 h.2, costExt h.1 h.2⟩

/-- The cost of parsing a list of tokens. -/
theorem costTokens (sys : Sys) (k : ConstraintKind) (ts : List Token) (src : ConstraintSource) :
    (parseTokensC sys k ts src).calls ≤ 3 * ts.length + 1 ∧ (parseTokensC sys k ts src).depth ≤ ts.length + 1 ∧
    2 * (parseTokensC sys k ts src).copied ≤ ts.length * ts.length ∧
    ∀ e, (parseTokensC sys k ts src).res = .ok e → (parseTokensC sys k ts src).copied = depths 0 e ∧
      prefixes e < (parseTokensC sys k ts src).depth := by
  unfold parseTokensC
  have hA := (costParse sys k src (2 * ts.length + 2)).1 0 ⟨ts, eofLoc ts⟩
  rcases ok_or_stops (parseAboveC sys k src (2 * ts.length + 2) 0 ⟨ts, eofLoc ts⟩) with ⟨⟨a, s1⟩, ha⟩ | hs
  · obtain ⟨c, h1, h2, h3, h4, h5, h6, h0⟩ := hA.ok _ _ ha
    dsimp only at h2
    have h7 := depths_le_of (e := a) (c := ts.length) (by omega)
    rw [Metered.bind_ok ha]
    have hx : ∃ r : Res Expr, (lift (expectTokenKind .endOfInput src s1) >>= fun _ => lift (.ok a)) = lift r ∧
        ∀ e, r = .ok e → e = a := by
      cases expectTokenKind .endOfInput src s1 with
      | ok q => exact ⟨.ok a, rfl, fun e he => by cases he; rfl⟩
      | err c => exact ⟨.err c, rfl, nofun⟩
      | crash => exact ⟨.crash, rfl, nofun⟩
      | oof => exact ⟨.oof, rfl, nofun⟩
    obtain ⟨r, hx, hr⟩ := hx
    dsimp only
    rw [hx]
    simp only [lift]
    refine ⟨by omega, by omega, by omega, fun e he => ?_⟩
    cases hr e he
    exact ⟨by omega, by omega⟩
  · obtain ⟨c1, c2, c3⟩ := hA.stops hs
    obtain ⟨b1, b2, b3, b4⟩ := Metered.bind_stops hs (fun r => lift (expectTokenKind .endOfInput src r.2) >>= fun _ => lift (.ok r.1))
    refine ⟨?_, ?_, ?_, fun e he => absurd he (b1 _)⟩
    · exact Nat.le_trans (Nat.le_of_eq b2) c1
    · exact Nat.le_trans (Nat.le_of_eq b3) c2
    · exact Nat.le_trans (Nat.le_of_eq (congrArg (2 * ·) b4)) c3

/-! ### Type checking -/

/-- The cost of checking types. -/
theorem costInfer (src : ConstraintSource) (sc : Scope) (e : Expr) :
    (inferAndCheckC src sc e).calls ≤ nodes e ∧ (inferAndCheckC src sc e).depth ≤ height e ∧
    (inferAndCheckC src sc e).copied = 0 := by
  have un : ∀ {x : Metered Expr} {f : Expr → Metered Expr}, (∀ a, (f a).calls = 0 ∧ (f a).depth = 0 ∧ (f a).copied = 0) →
      (x >>= f).calls = x.calls ∧ (x >>= f).depth = x.depth ∧ (x >>= f).copied = x.copied := by
    intro x f hf
    rcases ok_or_stops x with ⟨a, ha⟩ | hs
    · rw [Metered.bind_ok ha]
      obtain ⟨h1, h2, h3⟩ := hf a
      simp only [h1, h2, h3]
      exact ⟨rfl, Nat.max_zero _, rfl⟩
    · exact (Metered.bind_stops hs f).2
  induction e with
  | boolConst | intConst | key | actionParam | attr | notSet =>
    unfold inferAndCheckC
    exact ⟨Nat.le_refl _, Nat.le_refl _, rfl⟩
  | typeCast i e ih =>
    unfold inferAndCheckC
    simp only [nodes, height, enter, lift]
    exact ⟨by omega, by omega, trivial⟩
  | boolNeg i e ih | arithNeg i e ih =>
    unfold inferAndCheckC
    obtain ⟨h1, h2, h3⟩ := ih
    simp only [enter, nodes, height]
    rw [(un fun a => ?_).1, (un fun a => ?_).2.1, (un fun a => ?_).2.2]
    · exact ⟨by omega, by omega, h3⟩
    all_goals split <;> exact ⟨rfl, rfl, rfl⟩
  | field i e f ih =>
    unfold inferAndCheckC
    obtain ⟨h1, h2, h3⟩ := ih
    simp only [enter, nodes, height]
    rw [(un fun a => ?_).1, (un fun a => ?_).2.1, (un fun a => ?_).2.2]
    · exact ⟨by omega, by omega, h3⟩
    all_goals split <;> exact ⟨rfl, rfl, rfl⟩
  | bin i op l r ihl ihr =>
    unfold inferAndCheckC
    obtain ⟨h1, h2, h3⟩ := ihl
    obtain ⟨g1, g2, g3⟩ := ihr
    simp only [enter, nodes, height]
    rcases ok_or_stops (inferAndCheckC src sc l) with ⟨a, ha⟩ | hs
    · rw [Metered.bind_ok ha]
      dsimp only
      rw [(un fun b => ?_).1, (un fun b => ?_).2.1, (un fun b => ?_).2.2]
      · exact ⟨by omega, by omega, by omega⟩
      all_goals
        cases op <;> dsimp only <;> (repeat' split) <;> first
        | exact ⟨rfl, rfl, rfl⟩
        | (cases unify src a b with
           | ok u => simp only [lift_bind_ok]; split <;> exact ⟨rfl, rfl, rfl⟩
           | _ => exact ⟨rfl, rfl, rfl⟩)
    · obtain ⟨-, b2, b3, b4⟩ := Metered.bind_stops hs (fun l => inferAndCheckC src sc r >>= fun r =>
        (match op with
        | .and | .or | .implies =>
          if l.ty ≠ .boolean then lift (quotingError src l.start l.stop)
          else if r.ty ≠ .boolean then lift (quotingError src r.start r.stop)
          else lift (.ok (.bin (i.withTy .boolean) op l r))
        | .gt | .ge | .lt | .le | .eq | .ne => do
          let (t, l, r) ← lift (unify src l r)
          if op ≠ .eq ∧ op ≠ .ne ∧ !typeHasOrdering t then lift (quotingError src i.start i.stop)
          else lift (.ok (.bin (i.withTy .boolean) op l r))
        | .unknown => lift (.err .internal) : Metered Expr))
      refine ⟨?_, ?_, ?_⟩
      · have := b2; refine Nat.le_trans (Nat.add_le_add_right (Nat.le_of_eq b2) 1) ?_; omega
      · refine Nat.le_trans (Nat.add_le_add_right (Nat.le_of_eq b3) 1) ?_; omega
      · exact b4.trans h3

theorem costInfer_ok {src : ConstraintSource} {sc : Scope} {e e' : Expr} (h : inferAndCheck src sc e = .ok e') :
    (inferAndCheckC src sc e).calls = nodes e ∧ (inferAndCheckC src sc e).depth = height e := by
  induction e generalizing e' with
  | boolConst | intConst | key | actionParam | attr | notSet => unfold inferAndCheckC; exact ⟨rfl, rfl⟩
  | typeCast i e ih =>
    unfold inferAndCheck at h
    exact (quotingError_ne_ok.1 h).elim
  | boolNeg i e ih | arithNeg i e ih | field i e f ih =>
    unfold inferAndCheck at h
    simp only [Res.bind_eq_ok] at h
    obtain ⟨a, h1, -⟩ := h
    obtain ⟨g1, g2⟩ := ih h1
    unfold inferAndCheckC
    simp only [enter, nodes, height]
    rw [Metered.bind_ok ((res_inferC src sc e).trans h1)]
    dsimp only
    split <;> simp only [lift] <;> exact ⟨by omega, by omega⟩
  | bin i op l r ihl ihr =>
    unfold inferAndCheck at h
    simp only [Res.bind_eq_ok] at h
    obtain ⟨a, h1, b, h2, -⟩ := h
    obtain ⟨g1, g2⟩ := ihl h1
    obtain ⟨g3, g4⟩ := ihr h2
    unfold inferAndCheckC
    simp only [enter, nodes, height]
    rw [Metered.bind_ok ((res_inferC src sc l).trans h1), Metered.bind_ok ((res_inferC src sc r).trans h2)]
    have hz : ∀ y : Metered Expr, y.calls = 0 → y.depth = 0 →
        (inferAndCheckC src sc l).calls + ((inferAndCheckC src sc r).calls + y.calls) + 1 = 1 + nodes l + nodes r ∧
        max (inferAndCheckC src sc l).depth (max (inferAndCheckC src sc r).depth y.depth) + 1 =
          1 + max (height l) (height r) := by
      intro y h3 h4
      exact ⟨by omega, by omega⟩
    dsimp only
    refine hz _ ?_ ?_ <;> cases op <;> dsimp only <;> (repeat' split) <;> first
      | rfl
      | (cases unify src a b with
         | ok u => simp only [lift_bind_ok]; split <;> rfl
         | _ => rfl)

theorem height_castInt (e : Expr) (t : Ty) : height (castIntStep e t) ≤ height e + 1 := by
  unfold castIntStep
  split
  · simp only [wrapWithCast, height]; omega
  · omega

theorem height_cast (e : Expr) (t : Ty) : height (castTransitivelyTo e t) ≤ height e + 2 := by
  have := height_castInt e t
  unfold castTransitivelyTo
  simp only
  split
  · simp only [wrapWithCast, height]; omega
  · omega

theorem cast_boolean {e : Expr} (h : e.ty = .boolean) (t : Ty) : castTransitivelyTo e t = e := by
  have h1 : castIntStep e t = e := by
    unfold castIntStep
    rw [h]
    split
    · rename_i h; cases h.2
    · rfl
  unfold castTransitivelyTo
  simp only [h1, h]
  split
  · rename_i h; simp [isFixedUnsigned] at h
  · rfl

/-- Casts make the tree of a constraint at most two higher. -/
theorem height_infer {src : ConstraintSource} {sc : Scope} {e e' : Expr} (h : inferAndCheck src sc e = .ok e') :
    height e' ≤ height e + 2 ∧ (e'.ty ≠ .boolean → height e' = height e) := by
  induction e generalizing e' with
  | notSet i => exact (quotingError_ne_ok.1 h).elim
  | boolConst i b => cases h; exact ⟨by simp only [height]; omega, fun _ => rfl⟩
  | intConst i s => cases h; exact ⟨by simp only [height]; omega, fun _ => rfl⟩
  | key i n => obtain ⟨t, _, hs, rfl⟩ := infer_key h; exact ⟨by simp only [height]; omega, fun _ => rfl⟩
  | actionParam i n => obtain ⟨t, _, hs, rfl⟩ := infer_param h; exact ⟨by simp only [height]; omega, fun _ => rfl⟩
  | attr i n => obtain ⟨_, rfl⟩ := infer_attr h; exact ⟨by simp only [height]; omega, fun _ => rfl⟩
  | typeCast i e => exact (quotingError_ne_ok.1 h).elim
  | boolNeg i e ih =>
    obtain ⟨x, hx, _, rfl⟩ := infer_boolNeg.1 h
    have := (ih hx).1
    exact ⟨by simp only [height]; omega, fun hn => absurd rfl hn⟩
  | arithNeg i e ih =>
    obtain ⟨x, hx, ht, rfl⟩ := infer_arithNeg.1 h
    have := (ih hx).2 (by rw [ht]; nofun)
    exact ⟨by simp only [height]; omega, fun _ => by simp only [height]; omega⟩
  | field i e f ih =>
    obtain ⟨x, t, hx, hf, rfl⟩ := infer_field.1 h
    have := (ih hx).2 (by intro h0; rw [h0] at hf; cases hf)
    exact ⟨by simp only [height]; omega, fun _ => by simp only [height]; omega⟩
  | bin i op l r ihl ihr =>
    obtain ⟨l', r', hl, hr, ⟨_, _, _, rfl⟩ | ⟨_, t, _, _, rfl⟩⟩ := infer_bin.1 h
    · have := (ihl hl).1
      have := (ihr hr).1
      exact ⟨by simp only [height]; omega, fun hn => absurd rfl hn⟩
    · have key : ∀ {a a' : Expr}, height a' ≤ height a + 2 ∧ (a'.ty ≠ .boolean → height a' = height a) →
          height (castTransitivelyTo a' t) ≤ height a + 2 := by
        rintro a a' ⟨h1, h2⟩
        by_cases hb : a'.ty = .boolean
        · rw [cast_boolean hb]; exact h1
        · have := height_cast a' t
          have := h2 hb
          omega
      have := key (ihl hl)
      have := key (ihr hr)
      exact ⟨by simp only [height]; omega, fun hn => absurd rfl hn⟩

/-! ### Long constraints -/

theorem abs_not {e : Expr} {s : SExpr} (h : abs e = some (.not s)) : ∃ i a, e = .boolNeg i a ∧ abs a = some s := by
  cases e with
  | boolNeg i a =>
    simp only [abs, Option.map_eq_some_iff] at h
    obtain ⟨b, h1, h2⟩ := h
    cases h2
    exact ⟨i, a, rfl, h1⟩
  | bin i op l r =>
    simp only [abs, Option.bind_eq_some_iff] at h
    obtain ⟨a, -, b, -, h⟩ := h
    cases op <;> cases h
  | intConst i z =>
    simp only [abs, Option.map_eq_some_iff] at h
    obtain ⟨b, h1, h2⟩ := h
    cases h2
  | arithNeg i a | field i a f =>
    simp only [abs, Option.map_eq_some_iff] at h
    obtain ⟨b, h1, h2⟩ := h
    cases h2
  | _ => cases h

theorem abs_conj {e : Expr} {a b : SExpr} (h : abs e = some (.conn .and a b)) :
    ∃ i l r, e = .bin i .and l r ∧ abs l = some a ∧ abs r = some b := by
  cases e with
  | bin i op l r =>
    simp only [abs, Option.bind_eq_some_iff] at h
    obtain ⟨a, h1, b, h2, h⟩ := h
    cases op <;> cases h
    exact ⟨i, l, r, rfl, h1, h2⟩
  | intConst i z =>
    simp only [abs, Option.map_eq_some_iff] at h
    obtain ⟨b, h1, h2⟩ := h
    cases h2
  | boolNeg i a | arithNeg i a | field i a f =>
    simp only [abs, Option.map_eq_some_iff] at h
    obtain ⟨b, h1, h2⟩ := h
    cases h2
  | _ => cases h

theorem abs_bool {e : Expr} {b : Bool} (h : abs e = some (.bool b)) : ∃ i, e = .boolConst i b := by
  cases e with
  | boolConst i c => cases h; exact ⟨i, rfl⟩
  | bin i op l r =>
    simp only [abs, Option.bind_eq_some_iff] at h
    obtain ⟨a, h1, b, h2, h⟩ := h
    cases op <;> cases h
  | intConst i z =>
    simp only [abs, Option.map_eq_some_iff] at h
    obtain ⟨b, h1, h2⟩ := h
    cases h2
  | boolNeg i a | arithNeg i a | field i a f =>
    simp only [abs, Option.map_eq_some_iff] at h
    obtain ⟨b, h1, h2⟩ := h
    cases h2
  | _ => cases h

/-- The constraint with the text `trues n`. -/
def truesExpr : Nat → SExpr
  | 0 => .bool true
  | n + 1 => .conn .and (truesExpr n) (.bool true)

/-- The constraint with the text `bangs n`. -/
def bangsExpr : Nat → SExpr
  | 0 => .bool true
  | n + 1 => .not (bangsExpr n)

theorem truesExpr_writable (k : ConstraintKind) : ∀ n, Writable k (truesExpr n)
  | 0 => trivial
  | n + 1 => ⟨truesExpr_writable k n, trivial⟩

theorem bangsExpr_writable (k : ConstraintKind) : ∀ n, Writable k (bangsExpr n)
  | 0 => trivial
  | n + 1 => bangsExpr_writable k n

theorem toText_append (a b : List (Kind × Str)) : toText (a ++ b) = toText a ++ toText b := by
  simp only [toText, List.map_append, List.flatten_append]

theorem trues_text (num : Nat → Str) : ∀ n m, m ≤ 4 → trues n = toText (print num (truesExpr n) m)
  | 0, _, _ => rfl
  | n + 1, m, h => by
    have hp : print num (truesExpr (n + 1)) m = print num (truesExpr n) 4 ++ [(.and, c!"&&"), (.true_, c!"true")] := by
      simp only [truesExpr, print, paren, if_pos h]
    rw [hp, toText_append, trues, trues_text num n 4 (Nat.le_refl _)]
    rfl

theorem bangs_text (num : Nat → Str) : ∀ n m, m ≤ 6 → bangs n = toText (print num (bangsExpr n) m)
  | 0, _, _ => rfl
  | n + 1, m, h => by
    have hp : print num (bangsExpr (n + 1)) m = [(.bang, c!"!")] ++ print num (bangsExpr n) 6 := by
      simp only [bangsExpr, print, paren, if_pos h]
      rfl
    rw [hp, toText_append, bangs, bangs_text num n 6 (Nat.le_refl _)]
    rfl

theorem trues_length : ∀ n, (trues n).length = 8 * n + 5
  | 0 => rfl
  | n + 1 => by simp only [trues, List.length_append, trues_length n, List.length_cons, List.length_nil]; omega

theorem bangs_length : ∀ n, (bangs n).length = 2 * n + 5
  | 0 => rfl
  | n + 1 => by simp only [bangs, List.length_append, bangs_length n, List.length_cons, List.length_nil]; omega

theorem trues_shape : ∀ (n : Nat) {e : Expr}, abs e = some (truesExpr n) →
    nodes e = 2 * n + 1 ∧ depths 0 e = n * (n + 1) ∧ height e = n + 1
  | 0, e, h => by
    obtain ⟨i, rfl⟩ := abs_bool h
    exact ⟨rfl, rfl, rfl⟩
  | n + 1, e, h => by
    obtain ⟨i, l, r, rfl, h1, h2⟩ := abs_conj h
    obtain ⟨j, rfl⟩ := abs_bool h2
    obtain ⟨g1, g2, g3⟩ := trues_shape n h1
    simp only [nodes, depths, height, depths_succ, g1, g2, g3]
    refine ⟨by omega, ?_, by omega⟩
    have : (n + 1) * (n + 1 + 1) = n * (n + 1) + 2 * n + 2 := by
      simp only [Nat.mul_add, Nat.add_mul]; omega
    omega

theorem bangs_shape : ∀ (n : Nat) {e : Expr}, abs e = some (bangsExpr n) → prefixes e = n ∧ height e = n + 1
  | 0, e, h => by
    obtain ⟨i, rfl⟩ := abs_bool h
    exact ⟨rfl, rfl⟩
  | n + 1, e, h => by
    obtain ⟨i, a, rfl, h1⟩ := abs_not h
    obtain ⟨g1, g2⟩ := bangs_shape n h1
    simp only [prefixes, height, g1, g2]
    exact ⟨by omega, by omega⟩

theorem truesExpr_ty (σ : Sig) : ∀ n, HasTy σ (truesExpr n) .boolean
  | 0 => .bool _
  | n + 1 => .conn (truesExpr_ty σ n) (.bool _)

theorem bangsExpr_ty (σ : Sig) : ∀ n, HasTy σ (bangsExpr n) .boolean
  | 0 => .bool _
  | n + 1 => .not (bangsExpr_ty σ n)

end P4C
