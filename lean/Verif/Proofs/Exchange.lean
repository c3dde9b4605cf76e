import Verif.Spec.Exchange
import Verif.Proofs.ComposeVerdict
import Verif.Proofs.Slice
import Verif.Proofs.Blame
import Verif.Proofs.StuckValue

/-!
# Constraints with a part that is exchanged for another
-/

namespace P4C

open Spec

/-- `Swap x y s s'`: the second expression has `y` in a place where the first one has `x`. -/
inductive Swap (x y : SExpr) : SExpr → SExpr → Prop where
  | here : Swap x y x y
  | not {e e' : SExpr} : Swap x y e e' → Swap x y (.not e) (.not e')
  | neg {e e' : SExpr} : Swap x y e e' → Swap x y (.neg e) (.neg e')
  | connL {o : Spec.Conn} {e e' f : SExpr} : Swap x y e e' → Swap x y (.conn o e f) (.conn o e' f)
  | connR {o : Spec.Conn} {e e' f : SExpr} : Swap x y e e' → Swap x y (.conn o f e) (.conn o f e')
  | cmpL {o : Cmp} {e e' f : SExpr} : Swap x y e e' → Swap x y (.cmp o e f) (.cmp o e' f)
  | cmpR {o : Cmp} {e e' f : SExpr} : Swap x y e e' → Swap x y (.cmp o f e) (.cmp o f e')
  | field {e e' : SExpr} {f : Str} : Swap x y e e' → Swap x y (.field e f) (.field e' f)

theorem swap_hasTy {Γ : Sig} {x y s s' : SExpr} {t a : Ty} (h : Swap x y s s') (hx : HasTy Γ x t) (hy : HasTy Γ y t)
    (hs : HasTy Γ s a) : HasTy Γ s' a := by
  induction h generalizing a with
  | here => exact hasTy_unique hx hs ▸ hy
  | not _ ih => cases hs with | not h => exact .not (ih h)
  | neg _ ih => cases hs with | neg h => exact .neg (ih h)
  | connL _ ih => cases hs with | conn h1 h2 => exact .conn (ih h1) h2
  | connR _ ih => cases hs with | conn h1 h2 => exact .conn h1 (ih h2)
  | cmpL _ ih => cases hs with | cmp h1 h2 h3 h4 => exact .cmp (ih h1) h2 h3 h4
  | cmpR _ ih => cases hs with | cmp h1 h2 h3 h4 => exact .cmp h1 (ih h2) h3 h4
  | field _ ih => cases hs with | field h1 h2 => exact .field (ih h1) h2

theorem swap_evaluates {Γ : Sig} {ρ : Env} {x y s s' : SExpr} {t a : Ty} {v : Value} (h : Swap x y s s') (hx : HasTy Γ x t)
    (he : ∀ v, Evaluates Γ ρ x t v → Evaluates Γ ρ y t v) (hs : Evaluates Γ ρ s a v) : Evaluates Γ ρ s' a v := by
  induction h generalizing a v with
  | here => cases evaluates_hasTy hs _ hx; exact he _ hs
  | not _ ih => cases hs with | not h => exact .not (ih h)
  | neg _ ih => cases hs with | neg h => exact .neg (ih h)
  | connL _ ih =>
    cases hs with
    | conn h1 h2 => exact .conn (ih h1) h2
    | decided h1 h2 => exact .decided (ih h1) h2
  | connR _ ih =>
    cases hs with
    | conn h1 h2 => exact .conn h1 (ih h2)
    | decided h1 h2 => exact .decided h1 h2
  | cmpL _ ih => cases hs with | cmp h1 h2 h3 h4 h5 => exact .cmp (ih h1) h2 h3 h4 h5
  | cmpR _ ih => cases hs with | cmp h1 h2 h3 h4 h5 => exact .cmp h1 (ih h2) h3 h4 h5
  | field _ ih => cases hs with | field h1 h2 h3 => exact .field (ih h1) h2 h3

theorem Swap.symm {x y s s' : SExpr} (h : Swap x y s s') : Swap y x s' s := by
  induction h with
  | here => exact .here
  | not _ ih => exact .not ih
  | neg _ ih => exact .neg ih
  | connL _ ih => exact .connL ih
  | connR _ ih => exact .connR ih
  | cmpL _ ih => exact .cmpL ih
  | cmpR _ ih => exact .cmpR ih
  | field _ ih => exact .field ih

theorem swap_binL {x y l l' r z : SExpr} {op : BinOp} (h : Swap x y l l') (hb : binop op l r = some z) :
    ∃ z', binop op l' r = some z' ∧ Swap x y z z' := by
  cases op <;> first
    | (cases hb; done)
    | (cases hb; exact ⟨_, rfl, .connL h⟩)
    | (cases hb; exact ⟨_, rfl, .cmpL h⟩)

theorem swap_binR {x y l r r' z : SExpr} {op : BinOp} (h : Swap x y r r') (hb : binop op l r = some z) :
    ∃ z', binop op l r' = some z' ∧ Swap x y z z' := by
  cases op <;> first
    | (cases hb; done)
    | (cases hb; exact ⟨_, rfl, .connR h⟩)
    | (cases hb; exact ⟨_, rfl, .cmpR h⟩)

/-- A part in parentheses of a concatenation is a part of one of the two, if one of them is balanced and the part is. -/
theorem paren_split {a b p u s : List Token} {l r : Token} (ha : Balanced (kindsOf a)) (hu : Balanced (kindsOf u))
    (hl : l.kind = .lpar) (h : a ++ b = p ++ l :: u ++ r :: s) :
    (∃ s', a = p ++ l :: u ++ r :: s' ∧ s = s' ++ b) ∨ (∃ p', b = p' ++ l :: u ++ r :: s ∧ p = a ++ p') := by
  have key : ∀ x w, u = x ++ w → a ≠ p ++ l :: x := by
    rintro x w rfl e
    have h1 := ha.1
    have h2 := ha.2 (kindsOf p) (kindsOf (l :: x)) (by rw [e, kindsOf_append])
    have h3 := hu.2 (kindsOf x) (kindsOf w) (kindsOf_append _ _)
    rw [e, kindsOf_append] at h1
    have h4 : kindsOf (l :: x) = .lpar :: kindsOf x := by simp [kindsOf, hl]
    rw [h4] at h1
    simp only [List.count_append, List.count_cons_self] at h1
    rw [List.count_cons_of_ne (by decide)] at h1
    omega
  rw [List.append_assoc] at h
  rcases List.append_eq_append_iff.1 h with ⟨x, h1, h2⟩ | ⟨x, h1, h2⟩
  · exact .inr ⟨x, by rw [h2]; simp, h1⟩
  · cases x with
    | nil =>
      rw [List.append_nil] at h1
      exact .inr ⟨[], by simpa using h2.symm, by rw [h1, List.append_nil]⟩
    | cons c x =>
      simp only [List.cons_append, List.cons.injEq] at h2
      obtain ⟨rfl, h2⟩ := h2
      rcases List.append_eq_append_iff.1 h2 with ⟨y, h3, h4⟩ | ⟨y, h3, h4⟩
      · cases y with
        | nil =>
          rw [List.append_nil] at h3
          exact absurd h1 (key x [] (by rw [h3, List.append_nil]))
        | cons c y =>
          simp only [List.cons_append, List.cons.injEq] at h4
          obtain ⟨rfl, rfl⟩ := h4
          exact .inl ⟨y, by rw [h1, h3]; simp, rfl⟩
      · exact absurd h1 (key x y h3)

theorem G_unique {sys : Sys} {k : ConstraintKind} {ts : List Token} {e e' : Expr} (hn : NumTok ts)
    (h : G sys.inetPton6 k 0 ts e) (h' : G sys.inetPton6 k 0 ts e') : e = e' := by
  have h1 := (parseTokens_iff (src := {}) hn).2 ⟨ts, [], by simp, h, .inl rfl⟩
  have h2 := (parseTokens_iff (src := {}) hn).2 ⟨ts, [], by simp, h', .inl rfl⟩
  rw [h1] at h2
  cases h2
  rfl

theorem not_string {n : Nat} : ¬ Shape n [.string] := by
  intro h
  obtain ⟨u, o, h1, h2⟩ := shape_last h
  cases u with
  | nil =>
    cases h1
    rcases h2 with h2 | h2
    · exact absurd h2 (by decide)
    · cases h2.2
  | cons _ u => simp at h1

theorem dotted_noParen {sep : Str} {ts : List Token} {name : Str} {a b : Loc} (h : Dotted sep ts name a b) :
    ∀ t ∈ ts, t.kind ≠ .lpar := by
  induction h with
  | one h => intro t ht; rw [List.mem_singleton.1 ht, h]; nofun
  | snoc _ h1 h2 ih =>
    intro t ht
    simp only [List.mem_append, List.mem_cons, List.not_mem_nil, or_false] at ht
    rcases ht with ht | rfl | rfl
    · exact ih t ht
    · rw [h1]; nofun
    · rw [h2]; nofun

theorem G_swap {sys : Sys} {k : ConstraintKind} {n : Nat} {ts u u' : List Token} {e e1 e2 : Expr} {x y : SExpr}
    (h : G sys.inetPton6 k n ts e) (hn : NumTok ts)
    (h1 : G sys.inetPton6 k 0 u e1) (ax : abs e1 = some x) (h2 : G sys.inetPton6 k 0 u' e2) (ay : abs e2 = some y) :
    ∀ p l r s z, ts = p ++ l :: u ++ r :: s → l.kind = .lpar → r.kind = .rpar → abs e = some z →
      ∃ e' z', G sys.inetPton6 k n (p ++ l :: u' ++ r :: s) e' ∧ abs e' = some z' ∧ Swap x y z z' := by
  have hu := G_balanced h1
  have none_ : ∀ {ts p s : List Token} {l r : Token}, (∀ t ∈ ts, t.kind ≠ .lpar) → l.kind = .lpar → ts ≠ p ++ l :: u ++ r :: s := by
    intro ts p s l r h hl e
    exact h l (by rw [e]; simp) hl
  have sub : ∀ {a b : List Token}, NumTok a → (∀ t ∈ b, t ∈ a) → NumTok b := fun h hs t ht => h t (hs t ht)
  induction h with
  | true_ h3 | false_ h3 =>
    intro p l r s z e hl
    exact absurd e (none_ (by simp [h3]) hl)
  | numeral h3 =>
    intro p l r s z e hl
    refine absurd e (none_ ?_ hl)
    intro t ht hk
    rw [List.mem_singleton.1 ht] at hk
    rw [hk] at h3
    cases h3
  | @address t l' a r' _ _ h3 h4 h5 h6 h7 h8 =>
    intro p l r s z e hl hr _
    exfalso
    match p, e with
    | [], e =>
      simp only [List.nil_append, List.cons_append, List.cons.injEq] at e
      rw [← e.1, h3] at hl
      cases hl
    | [_], e =>
      simp only [List.nil_append, List.cons_append, List.cons.injEq] at e
      match u, h1, e.2.2 with
      | [], _, e =>
        simp only [List.nil_append, List.cons.injEq] at e
        rw [← e.1, h5] at hr
        cases hr
      | [b], h1, e =>
        simp only [List.nil_append, List.cons_append, List.cons.injEq] at e
        have := G_shape h1
        rw [kinds, List.map_singleton, ← e.1, h5] at this
        exact not_string this
      | _ :: _ :: u, _, e =>
        have := congrArg List.length e
        simp at this
    | [_, _], e =>
      simp only [List.nil_append, List.cons_append, List.cons.injEq] at e
      rw [← e.2.2.1, h5] at hl
      cases hl
    | _ :: _ :: _ :: p, e =>
      have := congrArg List.length e
      simp at this
      omega
  | key h3 h4 | param h3 h4 =>
    intro p l r s z e hl
    exact absurd e (none_ (dotted_noParen h4) hl)
  | attr h3 h4 =>
    intro p l r s z e hl
    exact absurd e (none_ (by simp [h3, h4]) hl)
  | @paren l' r' ts e h3 h4 h5 ih =>
    intro p l r s z e' hl hr az
    cases p with
    | nil =>
      simp only [List.nil_append, List.cons_append, List.cons.injEq] at e'
      obtain ⟨rfl, e'⟩ := e'
      rcases List.eq_nil_or_concat s with rfl | ⟨s', c, rfl⟩
      · obtain ⟨rfl, e9⟩ := List.append_inj' e' rfl
        obtain rfl : r' = r := (List.cons.inj e9).1
        cases G_unique (sub hn fun t ht => by simp [ht]) h4 h1
        rw [ax] at az
        cases az
        exact ⟨e2, y, .paren hl h2 hr, ay, .here⟩
      · rw [List.concat_eq_append, ← List.cons_append, ← List.append_assoc] at e'
        obtain ⟨e3, _⟩ := List.append_inj' e' rfl
        have hb := G_balanced h4
        have h6 := hb.2 (kindsOf (u ++ [r])) (kindsOf s') (by rw [← kindsOf_append, e3]; simp)
        rw [kindsOf_append, List.count_append, List.count_append, hu.1] at h6
        simp only [kindsOf, List.map_singleton, hr, List.count_singleton_self] at h6
        have : List.count Kind.lpar [Kind.rpar] = 0 := by decide
        omega
    | cons c p =>
      simp only [List.cons_append, List.cons.injEq] at e'
      obtain ⟨rfl, e'⟩ := e'
      rcases paren_split (G_balanced h4) hu hl (by simpa using e') with ⟨s', e3, rfl⟩ | ⟨p', e3, _⟩
      · obtain ⟨e'', z', g1, g2, g3⟩ := ih (sub hn fun t ht => by simp [ht]) p l r s' z e3 hl hr az
        exact ⟨e'', z', by simpa using G.paren h3 g1 h5, g2, g3⟩
      · exact absurd e3 (none_ (by simp [h5]) hl)
  | up h3 _ ih =>
    intro p l r s z e hl hr az
    obtain ⟨e', z', g1, g2, g3⟩ := ih hn p l r s z e hl hr az
    exact ⟨e', z', .up h3 g1, g2, g3⟩
  | @field ts e d t h3 h4 h5 ih =>
    intro p l r s z e' hl hr az
    simp only [abs, Option.map_eq_some_iff] at az
    obtain ⟨z, az, rfl⟩ := az
    rcases paren_split (G_balanced h3) hu hl e' with ⟨s', e3, rfl⟩ | ⟨p', e3, _⟩
    · obtain ⟨e'', z', g1, g2, g3⟩ := ih (sub hn fun t ht => by simp [ht]) p l r s' z e3 hl hr az
      exact ⟨_, _, by simpa using G.field g1 h4 h5, by rw [abs, g2]; rfl, .field g3⟩
    · exact absurd e3 (none_ (by simp [h4, h5]) hl)
  | @not t ts e h3 h4 ih =>
    intro p l r s z e' hl hr az
    simp only [abs, Option.map_eq_some_iff] at az
    obtain ⟨z, az, rfl⟩ := az
    cases p with
    | nil =>
      simp only [List.nil_append, List.cons_append, List.cons.injEq] at e'
      rw [← e'.1, h3] at hl
      cases hl
    | cons c p =>
      simp only [List.cons_append, List.cons.injEq] at e'
      obtain ⟨rfl, e'⟩ := e'
      obtain ⟨e'', z', g1, g2, g3⟩ := ih (sub hn fun t ht => by simp [ht]) p l r s z (by simpa using e') hl hr az
      exact ⟨_, _, by simpa using G.not h3 g1, by rw [abs, g2]; rfl, .not g3⟩
  | @neg t ts e h3 h4 ih =>
    intro p l r s z e' hl hr az
    simp only [abs, Option.map_eq_some_iff] at az
    obtain ⟨z, az, rfl⟩ := az
    cases p with
    | nil =>
      simp only [List.nil_append, List.cons_append, List.cons.injEq] at e'
      rw [← e'.1, h3] at hl
      cases hl
    | cons c p =>
      simp only [List.cons_append, List.cons.injEq] at e'
      obtain ⟨rfl, e'⟩ := e'
      obtain ⟨e'', z', g1, g2, g3⟩ := ih (sub hn fun t ht => by simp [ht]) p l r s z (by simpa using e') hl hr az
      exact ⟨_, _, by simpa using G.neg h3 g1, by rw [abs, g2]; rfl, .neg g3⟩
  | @bin o op n l1 r1 ts us e f h3 h4 h5 ih1 ih2 =>
    intro p l r s z e' hl hr az
    simp only [abs, Option.bind_eq_some_iff] at az
    obtain ⟨a, az1, b, az2, az3⟩ := az
    rcases paren_split (G_balanced h4) hu hl e' with ⟨s', e3, rfl⟩ | ⟨p', e3, rfl⟩
    · obtain ⟨e'', z', g1, g2, g3⟩ := ih1 (sub hn fun t ht => by simp [ht]) p l r s' a e3 hl hr az1
      obtain ⟨z'', b1, b2⟩ := swap_binL g3 az3
      exact ⟨_, _, by simpa using G.bin h3 g1 h5, by simp [abs, g2, az2, b1], b2⟩
    · cases p' with
      | nil =>
        simp only [List.nil_append, List.cons_append, List.cons.injEq] at e3
        exact absurd (e3.1 ▸ hl) (infix_kind h3).1
      | cons c p' =>
        simp only [List.cons_append, List.cons.injEq] at e3
        obtain ⟨rfl, e3⟩ := e3
        obtain ⟨e'', z', g1, g2, g3⟩ := ih2 (sub hn fun t ht => by simp [ht]) p' l r s b (by simpa using e3) hl hr az2
        obtain ⟨z'', b1, b2⟩ := swap_binR g3 az3
        exact ⟨_, _, by simpa using G.bin h3 h4 g1, by simp [abs, g2, az1, b1], b2⟩
  | @trailing ts o e h3 h4 ih =>
    intro p l r s z e' hl hr az
    rcases paren_split (G_balanced h3) hu hl e' with ⟨s', e3, rfl⟩ | ⟨p', e3, _⟩
    · obtain ⟨e'', z', g1, g2, g3⟩ := ih (sub hn fun t ht => by simp [ht]) p l r s' z e3 hl hr az
      exact ⟨_, _, by simpa using G.trailing g1 h4, g2, g3⟩
    · exact absurd e3 (none_ (by simp [h4]) hl)

/-! ### Texts -/

theorem tokensOf_enclosed {p a s : Str} {tp ta : List (Kind × Str)} (hp : Reads [] (p ++ c!"\n") tp)
    (ha : Reads [] (a ++ c!"\n") ta) :
    tokensOf (enclosed p a s) = tp ++ (.lpar, c!"(") :: ta ++ (.rpar, c!")") :: tokensOf s := by
  have e : enclosed p a s = p ++ c!"\n" ++ (c!"(" ++ (c!"\n" ++ (a ++ (c!"\n" ++ (c!")" ++ (c!"\n" ++ s)))))) := by
    simp [enclosed]
  rw [e, tokensOf_reads (reads_extend hp _ (.inr ⟨p, rfl⟩)), tokensOf_closed ha,
    tokensOf_key (k := .rpar) (by decide) (w := c!"\n") .lf]
  simp

theorem part_parse {sys : Sys} {k : ConstraintKind} {Γ : Sig} {a : Str} {x : SExpr} {t : Ty} (h : PartSays sys.inetPton6 k Γ a x t)
    {ta : List (Kind × Str)} (ha : Reads [] (a ++ c!"\n") ta) :
    ∃ toks e, toks.map kindText = ta ∧ G sys.inetPton6 k 0 toks e ∧ abs e = some x ∧ HasTy Γ x t := by
  obtain ⟨ts, e, h1, h2, h3, h4⟩ := h
  have : parseConstraint sys k ⟨a, {}⟩ = .ok e := parseConstraint_iff.2 (by rwa [tokenize_iff.2 h1])
  obtain ⟨toks, h5, h6⟩ := closed_parse this ha
  exact ⟨toks, e, h5, h6, h3, h4⟩

theorem exchanged_parse {sys : Sys} {k : ConstraintKind} {Γ Γ' : Sig} {p a b s : Str} {x y z : SExpr} {t t' : Ty}
    {src src' : ConstraintSource} {e : Expr} (hx : PartSays sys.inetPton6 k Γ a x t) (hy : PartSays sys.inetPton6 k Γ' b y t')
    (hp : Closed p) (ha : Closed a) (hb : Closed b) (e1 : src.str = enclosed p a s) (e2 : src'.str = enclosed p b s)
    (h : parseConstraint sys k src = .ok e) (az : abs e = some z) :
    ∃ e' z', parseConstraint sys k src' = .ok e' ∧ abs e' = some z' ∧ Swap x y z z' := by
  obtain ⟨tp, hp⟩ := hp
  obtain ⟨ta, ha⟩ := ha
  obtain ⟨tb, hb⟩ := hb
  obtain ⟨xs, ex, hx1, hx2, hx3, _⟩ := part_parse hx ha
  obtain ⟨ys, ey, hy1, hy2, hy3, _⟩ := part_parse hy hb
  obtain ⟨toks, last, h1, h2, hg⟩ := parseConstraint_split.1 h
  have m1 := tokens_src src
  have m2 := tokens_src src'
  rw [e1, tokensOf_enclosed hp ha, h1] at m1
  rw [e2, tokensOf_enclosed hp hb] at m2
  obtain ⟨u, v, q1, q2, q3⟩ := map_append_inv m1
  obtain ⟨P, u, rfl, q4, q5⟩ := map_append_inv q2
  obtain ⟨l, U, rfl, q6, q6', q7⟩ := map_cons_inv q5
  obtain ⟨r, S, rfl, q8, q8', q9⟩ := map_cons_inv q3
  rcases List.eq_nil_or_concat S with rfl | ⟨S, c, rfl⟩
  · have := (List.append_inj' q1 rfl).2
    cases this
    rw [q8] at h2
    cases h2
  · rw [List.concat_eq_append, ← List.cons_append, ← List.append_assoc] at q1
    obtain ⟨rfl, q10⟩ := List.append_inj' q1 rfl
    obtain rfl : last = c := (List.cons.inj q10).1
    obtain ⟨ex', g1, g2⟩ := G_same hx2 (sameToks_of_kindText (hx1.trans q7.symm))
    obtain ⟨e', z', g3, g4, g5⟩ := G_swap hg (fun t ht => tokenize_numTok src t (by rw [h1]; exact List.mem_append_left _ ht)) g1 (g2.trans hx3)
      hy2 hy3 P l r S z rfl q6 q8 az
    have : (tokenize src').map kindText = ((P ++ l :: ys ++ r :: S) ++ [last]).map kindText := by
      rw [m2, ← q9]
      simp [q4, hy1, kindText, q6, q6', q8, q8']
    rw [List.map_append] at this
    obtain ⟨toks', w, f1, f2, f3⟩ := map_append_inv this
    obtain ⟨last', rfl, f4, _⟩ := map_one_inv (f3.trans (rfl : _ = [(last.kind, last.text)]))
    obtain ⟨e'', g6, g7⟩ := G_same g3 (sameToks_of_kindText f2.symm)
    exact ⟨e'', z', parseConstraint_split.2 ⟨toks', last', f1, f4.trans h2, g6⟩, g7.trans g4, g5⟩

/-! ### Tables -/

theorem tableExchanged_symm {a b : Str} {d d' : TableDecl} (h : TableExchanged a b d d') : TableExchanged b a d' d := by
  obtain ⟨h1, h2, p, s, h3, h4, h5, h6, h7⟩ := h
  exact ⟨h1.symm, h2.symm, p, s, h4, h3, h5, h7, h6⟩

theorem actionExchanged_symm {a b : Str} {d d' : ActionDecl} (h : ActionExchanged a b d d') : ActionExchanged b a d' d := by
  obtain ⟨h1, h2, p, s, h3, h4, h5, h6, h7⟩ := h
  exact ⟨h1.symm, h2.symm, p, s, h4, h3, h5, h7, h6⟩

section
variable {pton : Str → Option Bytes} {a b : Str} {d d' : TableDecl}

theorem exchanged_read {k : ConstraintKind} {Γ : Sig} {p a b s : Str} {x y z : SExpr} {t u : Ty} {pr pr' : Preamble}
    {src : ConstraintSource} {e : Expr} (hx : PartSays pton k Γ a x t) (hy : PartSays pton k Γ b y t)
    (hp : Closed p) (ha : Closed a) (hb : Closed b) (e1 : src.str = enclosed p a s) (hs : Says k pr' (enclosed p b s))
    (h : ReadConstraint pton k Γ pr (some (src, e, z, u))) :
    ∃ src' e' z', ReadConstraint pton k Γ pr' (some (src', e', z', u)) ∧ Swap x y z z' ∧ HasTy Γ x t ∧ HasTy Γ y t := by
  obtain ⟨h1, h2, h3, h4⟩ := read_parts h
  obtain ⟨src', h5, e2⟩ := hs
  obtain ⟨e', z', h6, h7, h8⟩ := exchanged_parse (sys := ⟨pton⟩) hx hy hp ha hb e1 e2 h2 h3
  obtain ⟨_, _, _, _, _, tx⟩ := hx
  obtain ⟨_, _, _, _, _, ty⟩ := hy
  exact ⟨src', e', z', read_of_parse h5 h6 h7 (swap_hasTy h8 tx ty h4), h8, tx, ty⟩

theorem goodTable_exchanged (h : TableExchanged a b d d') (ht : SameType pton d a b) (hg : GoodTable pton d) :
    GoodTable pton d' := by
  obtain ⟨_, hk, p, s, s1, s2, cp, ca, cb⟩ := h
  obtain ⟨vs, x, y, t, v1, hx, hy⟩ := ht
  obtain ⟨vs', r, v2, dv, g⟩ := hg
  cases each_unique (R := KeyDecl) (fun _ _ _ => keyDecl_unique) v1 v2
  obtain ⟨src, e, u, ty, rfl, e1, _⟩ := says_read s1 g
  obtain ⟨src', e', z', h1, _⟩ := exchanged_read hx hy cp ca cb e1 s2 g
  exact ⟨vs, _, hk ▸ v1, dv, h1⟩

theorem tableValue_exchanged (h : TableExchanged a b d d') {entry : RtEntry} (ht : SameValue pton d entry a b) (v : Bool)
    (hg : TableValue pton d entry v) : TableValue pton d' entry v := by
  obtain ⟨_, hk, p, s, s1, s2, cp, ca, cb⟩ := h
  obtain ⟨vs, x, y, t, v1, hx, hy, he⟩ := ht
  obtain ⟨vs', src, e, z, ρ, v2, g, ef, em, ev⟩ := hg
  cases each_unique (R := KeyDecl) (fun _ _ _ => keyDecl_unique) v1 v2
  obtain ⟨src, e, u, ty, rfl', e1, _⟩ := says_read s1 g
  cases rfl'
  obtain ⟨src', e', z', h1, h2, tx, _⟩ := exchanged_read hx hy cp ca cb e1 s2 g
  exact (tableValue_iff (hk ▸ v1) h1 v).2 ⟨rfl, ef, ρ, em, swap_evaluates h2 tx (fun w => (he ρ em w).1) ev⟩

theorem sameValue_symm (h : d.matchFields = d'.matchFields) {entry : RtEntry} (hs : SameValue pton d entry a b) :
    SameValue pton d' entry b a := by
  obtain ⟨vs, x, y, t, v1, hx, hy, he⟩ := hs
  exact ⟨vs, y, x, t, h ▸ v1, hy, hx, fun ρ hρ v => (he ρ hρ v).symm⟩

theorem sameType_symm (h : d.matchFields = d'.matchFields) (hs : SameType pton d a b) : SameType pton d' b a := by
  obtain ⟨vs, x, y, t, v1, hx, hy⟩ := hs
  exact ⟨vs, y, x, t, h ▸ v1, hy, hx⟩

end

/-! ### Actions -/

section
variable {pton : Str → Option Bytes} {a b : Str} {d d' : ActionDecl}

theorem goodAction_exchanged (h : ActionExchanged a b d d') (ht : SameArgType pton d a b) (hg : GoodAction pton d) :
    GoodAction pton d' := by
  obtain ⟨_, hk, p, s, s1, s2, cp, ca, cb⟩ := h
  obtain ⟨vs, x, y, t, v1, hx, hy⟩ := ht
  obtain ⟨vs', r, v2, dv, g⟩ := hg
  cases each_unique (R := ParamIs) (fun _ _ _ => paramIs_unique) v1 v2
  obtain ⟨src, e, u, ty, rfl, e1, _⟩ := says_read s1 g
  obtain ⟨src', e', z', h1, _⟩ := exchanged_read hx hy cp ca cb e1 s2 g
  exact ⟨vs, _, hk ▸ v1, dv, h1⟩

theorem actionValue_exchanged (h : ActionExchanged a b d d') {i : RtAction} (ht : SameArgValue pton d i a b) (v : Bool)
    (hg : ActionValue pton d i v) : ActionValue pton d' i v := by
  obtain ⟨_, hk, p, s, s1, s2, cp, ca, cb⟩ := h
  obtain ⟨vs, x, y, t, v1, hx, hy, he⟩ := ht
  obtain ⟨vs', src, e, z, ρ, v2, g, ef, em, ev⟩ := hg
  cases each_unique (R := ParamIs) (fun _ _ _ => paramIs_unique) v1 v2
  obtain ⟨src, e, u, ty, rfl', e1, _⟩ := says_read s1 g
  cases rfl'
  obtain ⟨src', e', z', h1, h2, tx, _⟩ := exchanged_read hx hy cp ca cb e1 s2 g
  exact (actionValue_iff (hk ▸ v1) h1 v).2 ⟨rfl, ef, ρ, em, swap_evaluates h2 tx (fun w => (he ρ em w).1) ev⟩

theorem sameArgValue_symm (h : d.params = d'.params) {i : RtAction} (hs : SameArgValue pton d i a b) :
    SameArgValue pton d' i b a := by
  obtain ⟨vs, x, y, t, v1, hx, hy, he⟩ := hs
  exact ⟨vs, y, x, t, h ▸ v1, hy, hx, fun ρ hρ v => (he ρ hρ v).symm⟩

theorem sameArgType_symm (h : d.params = d'.params) (hs : SameArgType pton d a b) : SameArgType pton d' b a := by
  obtain ⟨vs, x, y, t, v1, hx, hy⟩ := hs
  exact ⟨vs, y, x, t, h ▸ v1, hy, hx⟩

end

end P4C
