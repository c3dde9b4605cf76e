import Verif.Proofs.Parse
/-!
# The parser accepts every sentence of the grammar
-/
namespace P4C
open Spec

/-! ### More fuel does not change results -/

/-- `b` equals `a` unless `a` ran out of fuel. -/
def Le {α : Type} (a b : Res α) : Prop := a = .oof ∨ a = b

theorem Le.refl {α : Type} (a : Res α) : Le a a := .inr rfl

theorem Le.bind {α β : Type} {a b : Res α} {f g : α → Res β} (h : Le a b) (hf : ∀ x, Le (f x) (g x)) :
    Le (a >>= f) (b >>= g) := by
  rcases h with rfl | rfl
  · exact .inl rfl
  · cases a with
    | ok x => exact hf x
    | err c => exact .inr rfl
    | crash => exact .inr rfl
    | oof => exact .inl rfl

theorem Le.ok {α : Type} {a b : Res α} {x : α} (h : Le a b) (ha : a = .ok x) : b = .ok x := by
  rcases h with rfl | rfl
  · cases ha
  · exact ha

theorem Le.trans {α : Type} {a b c : Res α} (h : Le a b) (h' : Le b c) : Le a c := by
  rcases h with rfl | rfl
  · exact .inl rfl
  · exact h'

theorem parseHead_mono {sys : Sys} {k : ConstraintKind} {src : ConstraintSource}
    {rec rec' : Nat → Stream → Res (Expr × Stream)} (h : ∀ p s, Le (rec p s) (rec' p s)) (s : Stream) :
    Le (parseHead sys k src rec s) (parseHead sys k src rec' s) := by
  unfold parseHead
  simp only
  split <;> first
    | exact Le.refl _
    | exact (h _ _).bind fun _ => Le.refl _

theorem parse_mono_succ (sys : Sys) (k : ConstraintKind) (src : ConstraintSource) : ∀ f,
    (∀ p s, Le (parseAbove sys k src f p s) (parseAbove sys k src (f + 1) p s)) ∧
    (∀ p e s, Le (parseExt sys k src f p e s) (parseExt sys k src (f + 1) p e s)) := by
  intro f
  induction f with
  | zero => exact ⟨fun _ _ => .inl rfl, fun _ _ _ => .inl rfl⟩
  | succ f ih =>
    obtain ⟨ihA, ihE⟩ := ih
    refine ⟨fun p s => ?_, fun p e s => ?_⟩
    · rw [parseAbove_succ, parseAbove_succ]
      exact (parseHead_mono ihA s).bind fun _ => ihE _ _ _
    · rw [parseExt_succ, parseExt_succ sys k src (f + 1)]
      split
      · exact Le.refl _
      · split
        · split
          · exact Le.refl _
          · split
            · exact Le.refl _
            · split
              · exact Le.refl _
              · split
                · exact (Le.refl _).bind fun _ => (Le.refl _).bind fun _ => ihE _ _ _
                · exact (ihA _ _).bind fun _ => (Le.refl _).bind fun _ => ihE _ _ _
        · exact Le.refl _

theorem parse_mono {sys : Sys} {k : ConstraintKind} {src : ConstraintSource} {f g : Nat} (h : f ≤ g) :
    (∀ p s, Le (parseAbove sys k src f p s) (parseAbove sys k src g p s)) ∧
    (∀ p e s, Le (parseExt sys k src f p e s) (parseExt sys k src g p e s)) := by
  induction h with
  | refl => exact ⟨fun _ _ => Le.refl _, fun _ _ _ => Le.refl _⟩
  | step _ ih =>
    have := parse_mono_succ sys k src
    exact ⟨fun p s => (ih.1 p s).trans ((this _).1 p s), fun p e s => (ih.2 p e s).trans ((this _).2 p e s)⟩

/-! ### Completeness -/

/-- `parseAbove` yields `r`, given enough fuel. -/
def AboveTo (sys : Sys) (k : ConstraintKind) (src : ConstraintSource) (p : Nat) (s : Stream) (r : Expr × Stream) :
    Prop := ∃ f, parseAbove sys k src f p s = .ok r

/-- `parseExt` yields `r`, given enough fuel. -/
def ExtTo (sys : Sys) (k : ConstraintKind) (src : ConstraintSource) (p : Nat) (e : Expr) (s : Stream)
    (r : Expr × Stream) : Prop := ∃ f, parseExt sys k src f p e s = .ok r

section
variable {sys : Sys} {k : ConstraintKind} {src : ConstraintSource}

theorem aboveTo_head {p : Nat} {s : Stream} {a : Expr × Stream} {r : Expr × Stream}
    (hh : ∃ f, parseHead sys k src (parseAbove sys k src f) s = .ok a) (he : ExtTo sys k src p a.1 a.2 r) :
    AboveTo sys k src p s r := by
  obtain ⟨f, hh⟩ := hh
  obtain ⟨g, he⟩ := he
  have m1 := parse_mono (sys := sys) (k := k) (src := src) (Nat.le_max_left f g)
  have m2 := parse_mono (sys := sys) (k := k) (src := src) (Nat.le_max_right f g)
  refine ⟨max f g + 1, ?_⟩
  rw [parseAbove_succ, (parseHead_mono m1.1 s).ok hh, Res.ok_bind]
  exact (m2.2 _ _ _).ok he

theorem extTo_stop {p : Nat} {e : Expr} {s : Stream} (h : Stop p s.peek) : ExtTo sys k src p e s (e, s) := by
  refine ⟨1, ?_⟩
  rw [parseExt_succ]
  rcases h with h | h | ⟨h, h'⟩
  · rw [if_pos (.inl h)]
  · rw [if_pos (.inr h)]
  · have hne : ¬ (s.peek.kind = .endOfInput ∨ s.peek.kind = .rpar) := by
      rintro (hk | hk) <;> rw [hk] at h <;> cases h
    rw [if_neg hne, if_pos h, if_neg, if_pos]
    · rcases h' with h' | ⟨h', ha⟩
      · exact .inl h'
      · exact .inr ⟨h'.symm, ha⟩
    · rintro ⟨hp, ha⟩
      rcases h' with h' | ⟨_, ha'⟩
      · omega
      · rw [ha] at ha'; cases ha'

theorem ext_branch {p : Nat} {s : Stream} (hx : isExtension s.peek.kind = true) (hp : p < tokenPrecedence s.peek.kind)
    {f : Nat} {e : Expr} : parseExt sys k src (f + 1) p e s =
      if s.peek.kind = .semicolon ∧ (s.next.peek.kind = .endOfInput ∨ s.next.peek.kind = .rpar) then
        .ok (e, s.next)
      else if s.peek.kind = .doubleColon then
        expectTokenKind .id src s.next >>= fun r => makeFieldAccess e r.1 >>= fun e =>
          parseExt sys k src f p e r.2
      else parseAbove sys k src f (tokenPrecedence s.peek.kind) s.next >>= fun r =>
        makeBinaryExpression s.peek e r.1 >>= fun e => parseExt sys k src f p e r.2 := by
  have hne : ¬ (s.peek.kind = .endOfInput ∨ s.peek.kind = .rpar) := by
    rintro (hk | hk) <;> rw [hk] at hx <;> cases hx
  rw [parseExt_succ, if_neg hne, if_pos hx, if_neg (by omega), if_neg (by omega)]

theorem extTo_trailing {e : Expr} {s : Stream} (h : s.peek.kind = .semicolon)
    (hn : s.next.peek.kind = .endOfInput ∨ s.next.peek.kind = .rpar) : ExtTo sys k src 0 e s (e, s.next) := by
  refine ⟨1, ?_⟩
  rw [ext_branch (by rw [h]; rfl) (by rw [h]; decide), if_pos ⟨h, hn⟩]

theorem extTo_field {p : Nat} {e : Expr} {s : Stream} {r : Expr × Stream} (h : s.peek.kind = .doubleColon)
    (hp : p ≤ 6) (hi : s.next.peek.kind = .id)
    (he : ExtTo sys k src p (.field (span e.start s.next.peek.stop) e s.next.peek.text) s.next.next r) :
    ExtTo sys k src p e s r := by
  obtain ⟨f, he⟩ := he
  refine ⟨f + 1, ?_⟩
  rw [ext_branch (by rw [h]; rfl) (by rw [h]; simp [tokenPrecedence]; omega), if_neg (by rw [h]; simp), if_pos h,
    expect_eq hi, Res.ok_bind, makeFieldAccess, if_pos hi, Res.ok_bind]
  exact he

theorem extTo_bin {p n l r : Nat} {op : BinOp} {e a : Expr} {s s1 : Stream} {res : Expr × Stream}
    (h : Infix s.peek.kind op n l r) (hp : p < n)
    (hne : ¬ (s.next.peek.kind = .endOfInput ∨ s.next.peek.kind = .rpar))
    (ha : AboveTo sys k src n s.next (a, s1))
    (he : ExtTo sys k src p (.bin (span e.start a.stop) op e a) s1 res) : ExtTo sys k src p e s res := by
  obtain ⟨hx, hd, rfl, _, _, _, hc, _⟩ := infix_inv h
  obtain ⟨f, ha⟩ := ha
  obtain ⟨g, he⟩ := he
  have m1 := parse_mono (sys := sys) (k := k) (src := src) (Nat.le_max_left f g)
  have m2 := parse_mono (sys := sys) (k := k) (src := src) (Nat.le_max_right f g)
  refine ⟨max f g + 1, ?_⟩
  rw [ext_branch hx hp, if_neg (fun h => hne h.2), if_neg hd, (m1.1 _ _).ok ha, Res.ok_bind, makeBinaryExpression, hc]
  simp only [Res.ok_bind]
  exact (m2.2 _ _ _).ok he

theorem dotted_inv {sep : Str} {ts : List Token} {name : Str} {a b : Loc} (h : Dotted sep ts name a b) :
    ∃ t, ∃ ds : List (Token × Token), t.kind = .id ∧ (∀ x ∈ ds, x.1.kind = .dot ∧ x.2.kind = .id) ∧
      ts = t :: (ds.map fun x => [x.1, x.2]).flatten ∧
      name = t.text ++ (ds.map fun x => sep ++ x.2.text).flatten ∧ a = t.start ∧
      b = ((t :: ds.map Prod.snd).getLast (by simp)).stop := by
  induction h with
  | @one t ht => exact ⟨t, [], ht, by simp, by simp, by simp, rfl, by simp⟩
  | @snoc ts name a b d t' _ hd ht' ih =>
    obtain ⟨t, ds, h1, h2, h3, h4, h5, h6⟩ := ih
    refine ⟨t, ds ++ [(d, t')], h1, ?_, ?_, ?_, h5, ?_⟩
    · intro x hx
      rcases List.mem_append.1 hx with hx | hx
      · exact h2 x hx
      · rw [List.mem_singleton.1 hx]; exact ⟨hd, ht'⟩
    · rw [h3]; simp
    · rw [h4]; simp
    · simp only [List.map_append, List.map_cons, List.map_nil]
      rw [List.getLast_cons (by simp), List.getLast_concat]

theorem parseDots_complete {ds : List (Token × Token)} : (∀ x ∈ ds, x.1.kind = .dot ∧ x.2.kind = .id) →
    ∀ {f : Nat} {ids rest : List Token} {eof : Loc}, ds.length < f → (Stream.peek ⟨rest, eof⟩).kind ≠ .dot →
    parseDots src f ids ⟨(ds.map fun x => [x.1, x.2]).flatten ++ rest, eof⟩ =
      .ok (ids ++ ds.map Prod.snd, ⟨rest, eof⟩) := by
  induction ds with
  | nil =>
    intro _ f ids rest eof hf hr
    cases f with
    | zero => exact absurd hf (by simp)
    | succ f =>
      unfold parseDots
      rw [if_neg (by simpa using hr)]
      simp
  | cons d ds ih =>
    intro h f ids rest eof hf hr
    cases f with
    | zero => exact absurd hf (by simp)
    | succ f =>
      have hd := h d List.mem_cons_self
      unfold parseDots
      rw [if_pos (by simpa [Stream.peek] using hd.1)]
      rw [expect_eq (by simpa [Stream.peek, Stream.next] using hd.2), Res.ok_bind]
      have := ih (fun x hx => h x (List.mem_cons_of_mem _ hx)) (f := f) (ids := ids ++ [d.2]) (eof := eof)
        (by simpa using hf) hr
      simpa [Stream.peek, Stream.next] using this

theorem G_head {pton : Str → Option Bytes} {n : Nat} {ts : List Token} {e : Expr} (h : G pton k n ts e) :
    ∃ t ts', ts = t :: ts' ∧ t.kind ≠ .endOfInput ∧ t.kind ≠ .rpar := by
  have dot : ∀ {sep ts name a b}, Dotted sep ts name a b →
      ∃ t ts', ts = t :: ts' ∧ t.kind ≠ .endOfInput ∧ t.kind ≠ .rpar := by
    intro sep ts name a b h
    obtain ⟨t, ds, h1, _, h3, _⟩ := dotted_inv h
    exact ⟨t, _, h3, by rw [h1]; decide, by rw [h1]; decide⟩
  induction h with
  | true_ h => exact ⟨_, _, rfl, by rw [h]; decide, by rw [h]; decide⟩
  | false_ h => exact ⟨_, _, rfl, by rw [h]; decide, by rw [h]; decide⟩
  | numeral hb => exact ⟨_, _, rfl, (by intro h; rw [h] at hb; cases hb), (by intro h; rw [h] at hb; cases hb)⟩
  | address h => exact ⟨_, _, rfl, by rw [h]; decide, by rw [h]; decide⟩
  | key _ h => exact dot h
  | param _ h => exact dot h
  | attr h => exact ⟨_, _, rfl, by rw [h]; decide, by rw [h]; decide⟩
  | paren h => exact ⟨_, _, rfl, by rw [h]; decide, by rw [h]; decide⟩
  | up _ _ ih => exact ih
  | field _ _ _ ih => obtain ⟨t, ts', rfl, h⟩ := ih; exact ⟨t, _, rfl, h⟩
  | not h => exact ⟨_, _, rfl, by rw [h]; decide, by rw [h]; decide⟩
  | neg h => exact ⟨_, _, rfl, by rw [h]; decide, by rw [h]; decide⟩
  | bin _ _ _ ih _ => obtain ⟨t, ts', rfl, h⟩ := ih; exact ⟨t, _, rfl, h⟩
  | trailing _ _ ih => obtain ⟨t, ts', rfl, h⟩ := ih; exact ⟨t, _, rfl, h⟩

theorem Stop.mono {p q : Nat} {t : Token} (h : Stop p t) (hq : p ≤ q) : Stop q t := by
  rcases h with h | h | ⟨h, h'⟩
  · exact .inl h
  · exact .inr (.inl h)
  · refine .inr (.inr ⟨h, ?_⟩)
    rcases h' with h' | ⟨h', ha⟩
    · exact .inl (by omega)
    · rcases Nat.lt_or_eq_of_le hq with hq | rfl
      · exact .inl (by omega)
      · exact .inr ⟨h', ha⟩

theorem Stop.not_kind {p : Nat} {t : Token} (h : Stop p t) : t.kind ≠ .dot ∧ t.kind ≠ .lpar := by
  rcases h with h | h | ⟨h, _⟩
  · rw [h]; decide
  · rw [h]; decide
  · constructor <;> intro hk <;> rw [hk] at h <;> cases h

/-- Completeness at level `n`. -/
def Complete (sys : Sys) (k : ConstraintKind) (src : ConstraintSource) (n : Nat) (ts : List Token) (e : Expr) : Prop :=
  (1 ≤ n → ∀ p rest eof r, p ≤ 6 → Fits p n → Stop n (Stream.peek ⟨rest, eof⟩) →
    ExtTo sys k src p e ⟨rest, eof⟩ r → AboveTo sys k src p ⟨ts ++ rest, eof⟩ r) ∧
  (n = 0 → ∀ rest eof, (Stream.peek ⟨rest, eof⟩).kind = .endOfInput ∨ (Stream.peek ⟨rest, eof⟩).kind = .rpar →
    AboveTo sys k src 0 ⟨ts ++ rest, eof⟩ (e, ⟨rest, eof⟩))

theorem complete_primary {ts : List Token} {e : Expr}
    (h : ∀ rest eof, Stop 8 (Stream.peek ⟨rest, eof⟩) →
      ∃ f, parseHead sys k src (parseAbove sys k src f) ⟨ts ++ rest, eof⟩ = .ok (e, ⟨rest, eof⟩)) :
    Complete sys k src 8 ts e :=
  ⟨fun _ _ rest eof _ _ _ hs hx => aboveTo_head (h rest eof hs) hx, nofun⟩

theorem complete_dotted {sep : Str} {ts : List Token} {name : Str} {a b : Loc} (h : Dotted sep ts name a b)
    (c : Info → Str → Expr)
    (hv : ∀ t (ds : List (Token × Token)), t.kind = .id → (∀ x ∈ ds, x.1.kind = .dot ∧ x.2.kind = .id) →
      makeVariable (t :: ds.map Prod.snd) k = .ok (c (span t.start ((t :: ds.map Prod.snd).getLast (by simp)).stop)
        (t.text ++ (ds.map fun x => sep ++ x.2.text).flatten))) :
    Complete sys k src 8 ts (c (span a b) name) := by
  obtain ⟨t, ds, h1, h2, rfl, rfl, rfl, rfl⟩ := dotted_inv h
  refine complete_primary fun rest eof hs => ⟨0, ?_⟩
  unfold parseHead
  have hk : (Stream.peek ⟨t :: (ds.map fun x => [x.1, x.2]).flatten ++ rest, eof⟩).kind = .id := h1
  simp only [hk]
  have hnl : ((Stream.next ⟨t :: (ds.map fun x => [x.1, x.2]).flatten ++ rest, eof⟩).peek).kind ≠ .lpar := by
    cases ds with
    | nil => exact hs.not_kind.2
    | cons d ds =>
      have := (h2 d List.mem_cons_self).1
      simp [Stream.next, Stream.peek, this]
  rw [if_neg hnl]
  have := parseDots_complete (src := src) h2 (f := ((ds.map fun x => [x.1, x.2]).flatten ++ rest).length + 1)
    (ids := [t]) (rest := rest) (eof := eof) (by
      have : ∀ ds : List (Token × Token), ds.length ≤ (ds.map fun x => [x.1, x.2]).flatten.length := by
        intro ds
        induction ds with
        | nil => simp
        | cons d ds ih => simp at *; omega
      have := this ds
      simp only [List.length_append]
      omega) hs.not_kind.1
  have e : Stream.next ⟨t :: (ds.map fun x => [x.1, x.2]).flatten ++ rest, eof⟩ =
    ⟨(ds.map fun x => [x.1, x.2]).flatten ++ rest, eof⟩ := rfl
  have e' : Stream.peek ⟨t :: (ds.map fun x => [x.1, x.2]).flatten ++ rest, eof⟩ = t := rfl
  rw [e, e', this, Res.ok_bind]
  simp only [List.cons_append, List.nil_append]
  rw [hv t ds h1 h2, Res.ok_bind]

theorem makeVariable_complete {t : Token} {ds : List (Token × Token)} (ht : t.kind = .id)
    (h : ∀ x ∈ ds, x.1.kind = .dot ∧ x.2.kind = .id) :
    makeVariable (t :: ds.map Prod.snd) k =
      .ok (match k with
        | .table => .key (span t.start ((t :: ds.map Prod.snd).getLast (by simp)).stop)
            (t.text ++ (ds.map fun x => c!"." ++ x.2.text).flatten)
        | .action => .actionParam (span t.start ((t :: ds.map Prod.snd).getLast (by simp)).stop)
            (t.text ++ (ds.map fun x => [] ++ x.2.text).flatten)) := by
  unfold makeVariable
  have hall : (t :: ds.map Prod.snd).all (fun t => t.kind = .id) = true := by
    simp only [List.all_cons, Bool.and_eq_true, decide_eq_true_eq, List.all_eq_true, List.mem_map]
    refine ⟨ht, ?_⟩
    rintro x ⟨y, hy, rfl⟩
    exact (h y hy).2
  simp only [hall, if_true]
  cases k <;> simp [variableName, located, span, Function.comp_def]

theorem complete {n : Nat} {ts : List Token} {e : Expr} (h : G sys.inetPton6 k n ts e) :
    Complete sys k src n ts e := by
  induction h with
  | @true_ t h =>
    refine complete_primary fun rest eof _ => ⟨0, ?_⟩
    unfold parseHead
    have hk : (Stream.peek ⟨[t] ++ rest, eof⟩) = t := rfl
    simp only [hk, h, makeBooleanConstant, if_true, Res.ok_bind, true_or]
    rfl
  | @false_ t h =>
    refine complete_primary fun rest eof _ => ⟨0, ?_⟩
    unfold parseHead
    have hk : (Stream.peek ⟨[t] ++ rest, eof⟩) = t := rfl
    simp only [hk, h, makeBooleanConstant, if_true, Res.ok_bind, or_true]
    rfl
  | @numeral t b n s hb hv hc =>
    refine complete_primary fun rest eof _ => ⟨0, ?_⟩
    have hk : (Stream.peek ⟨[t] ++ rest, eof⟩) = t := rfl
    have hm : (makeIntegerConstant t >>= fun e => Res.ok (e, Stream.next ⟨[t] ++ rest, eof⟩)) =
        .ok (.intConst (span t.start t.stop) s, ⟨rest, eof⟩) := by
      unfold makeIntegerConstant
      rw [convertNumeral_val hb hv, canonical_iff.1 hc]
      rfl
    unfold parseHead
    simp only [hk]
    generalize hkd : t.kind = kd at hb
    cases kd <;> first
      | exact hm
      | cases hb
  | @address t l a r n s h1 h2 h3 h4 hA hc =>
    refine complete_primary fun rest eof _ => ⟨0, ?_⟩
    have hk : (Stream.peek ⟨[t, l, a, r] ++ rest, eof⟩) = t := rfl
    have hn : (Stream.next ⟨[t, l, a, r] ++ rest, eof⟩) = ⟨[l, a, r] ++ rest, eof⟩ := rfl
    unfold parseHead
    simp only [hk, hn, h1]
    rw [if_pos (show (Stream.peek ⟨[l, a, r] ++ rest, eof⟩).kind = .lpar from h2)]
    rw [show (Stream.next ⟨[l, a, r] ++ rest, eof⟩) = ⟨[a, r] ++ rest, eof⟩ from rfl]
    rw [expect_eq (show (Stream.peek ⟨[a, r] ++ rest, eof⟩).kind = .string from h3), Res.ok_bind]
    simp only [show (Stream.next ⟨[a, r] ++ rest, eof⟩) = ⟨[r] ++ rest, eof⟩ from rfl]
    rw [expect_eq (show (Stream.peek ⟨[r] ++ rest, eof⟩).kind = .rpar from h4), Res.ok_bind]
    have := (address_iff (a := t.start) (b := r.stop)).2 ⟨n, hA, rfl⟩
    rw [show (Stream.peek ⟨[a, r] ++ rest, eof⟩) = a from rfl, show (Stream.peek ⟨[r] ++ rest, eof⟩) = r from rfl, this,
      canonical_iff.1 hc]
    rfl
  | @key ts name a b hk h =>
    subst hk
    exact complete_dotted h Expr.key fun t ds ht hd => makeVariable_complete (k := .table) ht hd
  | @param ts name a b hk h =>
    subst hk
    exact complete_dotted h Expr.actionParam fun t ds ht hd => makeVariable_complete (k := .action) ht hd
  | @attr d t h1 h2 =>
    refine complete_primary fun rest eof _ => ⟨0, ?_⟩
    unfold parseHead
    have hk : (Stream.peek ⟨[d, t] ++ rest, eof⟩) = d := rfl
    simp only [hk, h1]
    rw [expect_eq (show (Stream.next ⟨[d, t] ++ rest, eof⟩).peek.kind = .id from h2)]
    rfl
  | @paren l r ts e h1 _ h2 ih =>
    refine complete_primary fun rest eof _ => ?_
    obtain ⟨f, hf⟩ := ih.2 rfl (r :: rest) eof (.inr h2)
    refine ⟨f, ?_⟩
    unfold parseHead
    have hk : (Stream.peek ⟨l :: ts ++ [r] ++ rest, eof⟩) = l := rfl
    have hn : (Stream.next ⟨l :: ts ++ [r] ++ rest, eof⟩) = ⟨ts ++ r :: rest, eof⟩ := by simp [Stream.next]
    simp only [hk, hn, h1]
    rw [hf, Res.ok_bind, expect_eq (show (Stream.peek ⟨r :: rest, eof⟩).kind = .rpar from h2)]
    rfl
  | @up n ts e hn _ ih =>
    refine ⟨?_, ?_⟩
    · intro _ p rest eof r hp hf hs hx
      refine ih.1 (by omega) p rest eof r hp ?_ (hs.mono (by omega)) hx
      rcases hf with hf | hf <;> unfold Fits <;> omega
    · rintro rfl rest eof hr
      have hs : ∀ n, Stop n (Stream.peek ⟨rest, eof⟩) := fun _ => hr.elim .inl (fun h => .inr (.inl h))
      exact ih.1 (by decide) 0 rest eof _ (by decide) (.inl (by decide)) (hs _) (extTo_stop (hs _))
  | @field ts e d t _ hd ht ih =>
    refine ⟨?_, nofun⟩
    intro _ p rest eof r hp hf hs hx
    have := ih.1 (by decide) p (d :: t :: rest) eof r hp hf
      (.inr (.inr ⟨show isExtension d.kind = true by rw [hd]; rfl, .inr (show tokenPrecedence d.kind = 7 ∧ _ by
        show tokenPrecedence d.kind = 7 ∧ tokenAssociativity d.kind = .left
        rw [hd]; exact ⟨rfl, rfl⟩)⟩))
      (extTo_field (s := ⟨d :: t :: rest, eof⟩) hd hp ht hx)
    simpa using this
  | @not t ts e ht _ ih =>
    refine ⟨?_, nofun⟩
    intro _ p rest eof r hp hf hs hx
    obtain ⟨f, hf'⟩ := ih.1 (by decide) 6 rest eof (e, ⟨rest, eof⟩) (by decide) (.inr ⟨rfl, rfl⟩) hs (extTo_stop hs)
    refine aboveTo_head (a := (.boolNeg (span t.start e.stop) e, ⟨rest, eof⟩)) ⟨f, ?_⟩ hx
    unfold parseHead
    have hk : (Stream.peek ⟨t :: ts ++ rest, eof⟩) = t := rfl
    have hn : (Stream.next ⟨t :: ts ++ rest, eof⟩) = ⟨ts ++ rest, eof⟩ := rfl
    simp only [hk, hn, ht, hf', Res.ok_bind, makeBooleanNegation, if_true]
    rfl
  | @neg t ts e ht _ ih =>
    refine ⟨?_, nofun⟩
    intro _ p rest eof r hp hf hs hx
    obtain ⟨f, hf'⟩ := ih.1 (by decide) 6 rest eof (e, ⟨rest, eof⟩) (by decide) (.inr ⟨rfl, rfl⟩) hs (extTo_stop hs)
    refine aboveTo_head (a := (.arithNeg (span t.start e.stop) e, ⟨rest, eof⟩)) ⟨f, ?_⟩ hx
    unfold parseHead
    have hk : (Stream.peek ⟨t :: ts ++ rest, eof⟩) = t := rfl
    have hn : (Stream.next ⟨t :: ts ++ rest, eof⟩) = ⟨ts ++ rest, eof⟩ := rfl
    simp only [hk, hn, ht, hf', Res.ok_bind, makeArithmeticNegation, if_true]
    rfl
  | @bin o op n l r ts us e f hi _ hg2 ih1 ih2 =>
    obtain ⟨hext, hdc, hn, rfl, hn1, hn5, _, hl⟩ := infix_inv hi
    refine ⟨?_, by omega⟩
    intro _ p rest eof res hp hf hs hx
    have hpn : p < n := by rcases hf with hf | hf <;> omega
    have hs' : Stop n (Stream.peek ⟨rest, eof⟩) := hs
    -- the right operand ends here as well
    have h2 := ih2.1 (by omega) n rest eof (f, ⟨rest, eof⟩) (by omega) (.inl (by omega)) (hs.mono (by omega))
      (extTo_stop hs')
    obtain ⟨t2, us', rfl, ht1, ht2⟩ := G_head hg2
    have := ih1.1 (by omega) p (o :: ((t2 :: us') ++ rest)) eof res hp (.inl (by omega))
      (.inr (.inr ⟨hext, by
        show tokenPrecedence o.kind < l ∨ (tokenPrecedence o.kind = l ∧ tokenAssociativity o.kind = .left)
        rcases hl with ⟨hl, ha⟩ | ⟨hl, ha⟩
        · exact .inr ⟨by omega, ha⟩
        · exact .inl (by omega)⟩))
      (extTo_bin (s := ⟨o :: ((t2 :: us') ++ rest), eof⟩) hi hpn
        (fun h => h.elim ht1 ht2) h2 hx)
    simpa using this
  | @trailing ts o e _ ho ih =>
    refine ⟨by omega, ?_⟩
    intro _ rest eof hr
    have := ih.1 (by decide) 0 (o :: rest) eof (e, ⟨rest, eof⟩) (by decide) (.inl (by decide))
      (.inr (.inr ⟨show isExtension o.kind = true by rw [ho]; rfl, .inr (by
        show tokenPrecedence o.kind = 1 ∧ tokenAssociativity o.kind = .left
        rw [ho]; exact ⟨rfl, rfl⟩)⟩))
      (extTo_trailing (s := ⟨o :: rest, eof⟩) ho hr)
    simpa using this

end

end P4C
