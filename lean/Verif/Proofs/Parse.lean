import Verif.Proofs.Address
import Verif.Spec.Grammar
/-!
# The parser accepts exactly the grammar
-/
namespace P4C
open Spec

/-! ### Canonical numerals -/

theorem digits_char {c c' : Char} {d : Nat} (h : (c, d) ∈ digits) (h' : (c', d) ∈ digits) (hd : d < 10) : c = c' := by
  have key : ∀ {x : Char}, (x, d) ∈ digits → x.toNat = d + 48 := by
    intro x hx
    have := base10_digit hx hd
    omega
  have e := (key h).trans (key h').symm
  exact Char.ext (UInt32.toNat.inj e)

theorem numVal_zero {s : Str} (h : NumVal 10 s 0) : c!"0" <+: s := by
  generalize hn : (0 : Nat) = n at h
  induction h with
  | @one c d hc hd =>
    subst hn
    rw [digits_char hc (show ('0', 0) ∈ digits by decide) (by decide)]
    exact ⟨[], rfl⟩
  | snoc _ _ _ ih => exact (ih (by omega)).trans ⟨_, rfl⟩

theorem canonical_snoc {s : Str} {c : Char} {n m : Nat} (hs : NumVal 10 s n) (h : Canonical (s ++ [c]) m) :
    Canonical s n ∧ n ≠ 0 := by
  have hp : ¬ c!"0" <+: s := by
    intro hz
    rcases h.2 with h2 | h2
    · have := congrArg List.length h2
      have := List.length_pos_iff.2 hs.ne_nil
      simp only [List.length_append, List.length_cons, List.length_nil] at *; omega
    · exact h2 (hz.trans ⟨_, rfl⟩)
  exact ⟨⟨hs, .inr hp⟩, fun hn => hp (numVal_zero (hn ▸ hs))⟩

theorem canonical_unique {s t : Str} {n : Nat} (hs : Canonical s n) (ht : Canonical t n) : s = t := by
  obtain ⟨h, hs2⟩ := id hs
  induction h generalizing t with
  | @one c d hc hd =>
    obtain ⟨h', ht2⟩ := id ht
    generalize hn : d = n at h'
    cases h' with
    | @one c' d' hc' hd' => subst hn; rw [digits_char hc hc' hd]
    | @snoc s' n' c' d' h1 h2 h3 =>
      subst hn
      exact absurd (show n' = 0 by omega) (canonical_snoc h1 ht).2
  | @snoc s' n' c' d' h1 h2 h3 ih =>
    obtain ⟨h', ht2⟩ := id ht
    obtain ⟨hc, hn⟩ := canonical_snoc h1 hs
    generalize hm : n' * 10 + d' = m at h'
    cases h' with
    | one h4 h5 => omega
    | @snoc s'' n'' c'' d'' h4 h5 h6 =>
      obtain ⟨hc', _⟩ := canonical_snoc h4 ht
      have e1 : n' = n'' := by omega
      have e2 : d' = d'' := by omega
      subst e1; subst e2
      rw [ih hc hc' hc.2, digits_char h2 h5 h3]

theorem canonical_iff {s : Str} {n : Nat} : Canonical s n ↔ s = natDec n :=
  ⟨fun h => canonical_unique h (natDec_canonical n), fun h => h ▸ natDec_canonical n⟩

/-! ### Unfolding -/

/-- The part of `parseAbove` before the loop. -/
def parseHead (sys : Sys) (k : ConstraintKind) (src : ConstraintSource) (rec : Nat → Stream → Res (Expr × Stream))
    (s0 : Stream) : Res (Expr × Stream) :=
  let t := s0.peek
  let s := s0.next
  match t.kind with
  | .true_ | .false_ => makeBooleanConstant t >>= fun e => .ok (e, s)
  | .binary | .octary | .decimal | .hexadec => makeIntegerConstant t >>= fun e => .ok (e, s)
  | .id =>
    if s.peek.kind = .lpar then
      expectTokenKind .string src s.next >>= fun r =>
      expectTokenKind .rpar src r.2 >>= fun q =>
      makeNetworkAddress sys t.text r.1.text t.start q.1.stop >>= fun e => .ok (e, q.2)
    else
      parseDots src (s.rest.length + 1) [t] s >>= fun r => makeVariable r.1 k >>= fun e => .ok (e, r.2)
  | .doubleColon => expectTokenKind .id src s >>= fun r => makeAttributeAccess t r.1 >>= fun e => .ok (e, r.2)
  | .bang => rec 6 s >>= fun r => makeBooleanNegation t r.1 >>= fun e => .ok (e, r.2)
  | .minus => rec 6 s >>= fun r => makeArithmeticNegation t r.1 >>= fun e => .ok (e, r.2)
  | .lpar => rec 0 s >>= fun r => expectTokenKind .rpar src r.2 >>= fun q => .ok (r.1, q.2)
  | _ => parseError t src

theorem parseAbove_succ (sys : Sys) (k : ConstraintKind) (src : ConstraintSource) (f p : Nat) (s : Stream) :
    parseAbove sys k src (f + 1) p s =
      parseHead sys k src (parseAbove sys k src f) s >>= fun r => parseExt sys k src f p r.1 r.2 := by
  rw [parseAbove]
  unfold parseHead
  rfl

theorem parseExt_succ (sys : Sys) (k : ConstraintKind) (src : ConstraintSource) (f p : Nat) (e : Expr) (s : Stream) :
    parseExt sys k src (f + 1) p e s =
      if s.peek.kind = .endOfInput ∨ s.peek.kind = .rpar then .ok (e, s)
      else if isExtension s.peek.kind then
        if p = tokenPrecedence s.peek.kind ∧ tokenAssociativity s.peek.kind = .none then parseError s.peek src
        else if p > tokenPrecedence s.peek.kind ∨
            (p = tokenPrecedence s.peek.kind ∧ tokenAssociativity s.peek.kind = .left) then .ok (e, s)
        else if s.peek.kind = .semicolon ∧ (s.next.peek.kind = .endOfInput ∨ s.next.peek.kind = .rpar) then
          .ok (e, s.next)
        else if s.peek.kind = .doubleColon then
          expectTokenKind .id src s.next >>= fun r => makeFieldAccess e r.1 >>= fun e =>
            parseExt sys k src f p e r.2
        else parseAbove sys k src f (tokenPrecedence s.peek.kind) s.next >>= fun r =>
          makeBinaryExpression s.peek e r.1 >>= fun e => parseExt sys k src f p e r.2
      else parseError s.peek src := by
  rw [parseExt]

theorem parseError_not_ok {α : Type} {t : Token} {src : ConstraintSource} {a : α} : parseError t src ≠ .ok a := by
  unfold parseError quotingError
  cases quoteSub src t.start t.stop <;> simp

theorem peek_of_ne_end {s : Stream} (h : s.peek.kind ≠ .endOfInput) : s.rest = s.peek :: s.next.rest := by
  obtain ⟨rest, eof⟩ := s
  cases rest with
  | nil => exact absurd rfl h
  | cons t ts => rfl

theorem expect_ok {kd : Kind} {src : ConstraintSource} {s : Stream} {r : Token × Stream}
    (h : expectTokenKind kd src s = .ok r) : s.peek.kind = kd ∧ r = (s.peek, s.next) := by
  unfold expectTokenKind at h
  simp only at h
  split at h
  · exact absurd h parseError_not_ok
  · rename_i hk; cases h; exact ⟨Classical.not_not.1 hk, rfl⟩

theorem expect_eq {kd : Kind} {src : ConstraintSource} {s : Stream} (h : s.peek.kind = kd) :
    expectTokenKind kd src s = .ok (s.peek, s.next) := by
  unfold expectTokenKind
  simp [h]

/-! ### Soundness -/

/-- `t` may follow an expression of level `q`. -/
def Next (q : Nat) (t : Token) : Prop :=
  isExtension t.kind = true → tokenPrecedence t.kind < q ∨
    (tokenPrecedence t.kind = q ∧ tokenAssociativity t.kind = .left)

/-- `t` ends the expression read by `parseAbove p`. -/
def Stop (p : Nat) (t : Token) : Prop :=
  t.kind = .endOfInput ∨ t.kind = .rpar ∨ (isExtension t.kind = true ∧ (tokenPrecedence t.kind < p ∨
    (tokenPrecedence t.kind = p ∧ tokenAssociativity t.kind = .left)))

theorem Stop.next {p : Nat} {t : Token} (h : Stop p t) : Next p t := by
  intro hx
  rcases h with h | h | h
  · rw [h] at hx; cases hx
  · rw [h] at hx; cases hx
  · exact h.2

theorem tokenPrecedence_le (k : Kind) : tokenPrecedence k ≤ 7 := by cases k <;> decide

theorem Next.eight (t : Token) : Next 8 t := fun _ => .inl (by have := tokenPrecedence_le t.kind; omega)

/-- The levels `parseAbove p` yields. -/
def Fits (p q : Nat) : Prop := p < q ∨ (p = 6 ∧ q = 6)

/-- Numerals consist of digits of their base. -/
def NumTok (ts : List Token) : Prop := ∀ t ∈ ts, ∀ b, baseOf t.kind = some b → ∃ n, NumVal b t.text n

theorem NumTok.tail {ts us : List Token} (h : NumTok (ts ++ us)) : NumTok us :=
  fun t ht => h t (List.mem_append_right _ ht)

theorem infix_inv {kd : Kind} {op : BinOp} {n l r : Nat} (h : Infix kd op n l r) :
    isExtension kd = true ∧ kd ≠ .doubleColon ∧ n = tokenPrecedence kd ∧ r = n + 1 ∧ 1 ≤ n ∧ n ≤ 5 ∧
      convertBinaryOperator kd = .ok op ∧
      ((l = n ∧ tokenAssociativity kd = .left) ∨ (l = n + 1 ∧ tokenAssociativity kd = .none)) := by
  cases h <;> simp [isExtension, tokenPrecedence, convertBinaryOperator, tokenAssociativity]

theorem Spec.G.le8 {pton : Str → Option Bytes} {k : ConstraintKind} {n : Nat} {ts : List Token} {e : Expr}
    (h : G pton k n ts e) : n ≤ 8 := by
  cases h with
  | bin hi => have := infix_inv hi; omega
  | up hn => omega
  | _ => decide

theorem Spec.G.down {pton : Str → Option Bytes} {k : ConstraintKind} {n m : Nat} {ts : List Token} {e : Expr}
    (h : G pton k n ts e) (hm : m ≤ n) : G pton k m ts e := by
  have h8 := h.le8
  obtain ⟨d, rfl⟩ := Nat.exists_eq_add_of_le hm
  clear hm
  induction d generalizing m with
  | zero => exact h
  | succ d ih => exact ih (G.up (by omega) (by simpa [Nat.add_assoc] using h)) (by omega)

theorem infix_of {kd : Kind} (h : isExtension kd = true) (hd : kd ≠ .doubleColon) :
    ∃ op l, Infix kd op (tokenPrecedence kd) l (tokenPrecedence kd + 1) ∧ convertBinaryOperator kd = .ok op ∧
      ((l = tokenPrecedence kd ∧ tokenAssociativity kd = .left) ∨
       (l = tokenPrecedence kd + 1 ∧ tokenAssociativity kd = .none)) := by
  cases kd <;> first
    | exact absurd h (by decide)
    | exact absurd rfl hd
    | exact ⟨_, _, by constructor, rfl, .inl ⟨rfl, rfl⟩⟩
    | exact ⟨_, _, by constructor, rfl, .inr ⟨rfl, rfl⟩⟩

/-- Names. -/
theorem parseDots_sound {src : ConstraintSource} : ∀ {f : Nat} {ids : List Token} {s : Stream}
    {r : List Token × Stream}, parseDots src f ids s = .ok r →
    ∃ ds : List (Token × Token), (∀ x ∈ ds, x.1.kind = .dot ∧ x.2.kind = .id) ∧
      s.rest = (ds.map fun x => [x.1, x.2]).flatten ++ r.2.rest ∧ r.1 = ids ++ ds.map Prod.snd ∧ r.2.eof = s.eof
  | 0, _, _, _, h => by cases h
  | f + 1, ids, s, r, h => by
    unfold parseDots at h
    split at h
    · rename_i hd
      obtain ⟨q, hq, h⟩ := Res.bind_eq_ok.1 h
      obtain ⟨hk, rfl⟩ := expect_ok hq
      obtain ⟨ds, h1, h2, h3, h4⟩ := parseDots_sound h
      refine ⟨(s.peek, s.next.peek) :: ds, ?_, ?_, ?_, h4⟩
      · intro x hx
        rcases List.mem_cons.1 hx with rfl | hx
        · exact ⟨hd, hk⟩
        · exact h1 x hx
      · rw [peek_of_ne_end (s := s) (by rw [hd]; decide), peek_of_ne_end (s := s.next) (by rw [hk]; decide), h2]
        simp
      · rw [h3]; simp
    · cases h; exact ⟨[], by simp, by simp, by simp, rfl⟩

theorem dotted_of {sep : Str} {t : Token} (ht : t.kind = .id) (ds : List (Token × Token))
    (h : ∀ x ∈ ds, x.1.kind = .dot ∧ x.2.kind = .id) :
    Dotted sep (t :: (ds.map fun x => [x.1, x.2]).flatten)
      (t.text ++ (ds.map fun x => sep ++ x.2.text).flatten) t.start
      ((t :: ds.map Prod.snd).getLast (by simp)).stop := by
  have key : ∀ (ds : List (Token × Token)), (∀ x ∈ ds, x.1.kind = .dot ∧ x.2.kind = .id) →
      ∀ (pre : List (Token × Token)), Dotted sep (t :: (pre.map fun x => [x.1, x.2]).flatten)
          (t.text ++ (pre.map fun x => sep ++ x.2.text).flatten) t.start
          ((t :: pre.map Prod.snd).getLast (by simp)).stop →
        Dotted sep (t :: ((pre ++ ds).map fun x => [x.1, x.2]).flatten)
          (t.text ++ ((pre ++ ds).map fun x => sep ++ x.2.text).flatten) t.start
          ((t :: (pre ++ ds).map Prod.snd).getLast (by simp)).stop := by
    intro ds
    induction ds with
    | nil => intro _ pre hp; simpa using hp
    | cons d ds ih =>
      intro hds pre hp
      have := ih (fun x hx => hds x (List.mem_cons_of_mem _ hx)) (pre ++ [d]) (by
        have hd := hds d (List.mem_cons_self)
        have := Dotted.snoc hp hd.1 hd.2
        have e : ((t :: (pre ++ [d]).map Prod.snd).getLast (by simp)) = d.2 := by
          simp only [List.map_append, List.map_cons, List.map_nil]
          rw [List.getLast_cons (by simp), List.getLast_concat]
        rw [e]
        simpa [List.append_assoc] using this)
      simpa [List.append_assoc] using this
  have := key ds h [] (by simpa using Dotted.one (sep := sep) ht)
  simpa using this

theorem makeVariable_sound {pton : Str → Option Bytes} {k : ConstraintKind} {t : Token} {ds : List (Token × Token)}
    {e : Expr} (ht : t.kind = .id) (h : ∀ x ∈ ds, x.1.kind = .dot ∧ x.2.kind = .id)
    (hv : makeVariable (t :: ds.map Prod.snd) k = .ok e) :
    G pton k 8 (t :: (ds.map fun x => [x.1, x.2]).flatten) e := by
  unfold makeVariable at hv
  have hall : (t :: ds.map Prod.snd).all (fun t => t.kind = .id) = true := by
    simp only [List.all_cons, Bool.and_eq_true, decide_eq_true_eq, List.all_eq_true, List.mem_map]
    refine ⟨ht, ?_⟩
    rintro x ⟨y, hy, rfl⟩
    exact (h y hy).2
  simp only [hall, if_true] at hv
  cases k with
  | table =>
    simp only at hv
    have e := (Res.ok.inj hv).symm
    subst e
    have := dotted_of (sep := c!".") ht ds h
    refine cast ?_ (G.key (pton := pton) (k := .table) rfl this)
    simp [variableName, located, span, Function.comp_def]
  | action =>
    simp only at hv
    have e := (Res.ok.inj hv).symm
    subst e
    have := dotted_of (sep := []) ht ds h
    refine cast ?_ (G.param (pton := pton) (k := .action) rfl this)
    simp [variableName, located, span, Function.comp_def]

/-- The statement of soundness for `parseAbove` with a given amount of fuel. -/
def SoundAbove (sys : Sys) (k : ConstraintKind) (rec : Nat → Stream → Res (Expr × Stream)) : Prop :=
  ∀ p s e s', NumTok s.rest → p ≤ 6 → rec p s = .ok (e, s') →
    ∃ ts q, s.rest = ts ++ s'.rest ∧ s'.eof = s.eof ∧ G sys.inetPton6 k q ts e ∧ (p = 0 ∨ Fits p q) ∧ Stop p s'.peek

theorem parseHead_sound {sys : Sys} {k : ConstraintKind} {src : ConstraintSource}
    {rec : Nat → Stream → Res (Expr × Stream)} (ih : SoundAbove sys k rec) {s s' : Stream} {e : Expr}
    (hn : NumTok s.rest) (h : parseHead sys k src rec s = .ok (e, s')) :
    ∃ ts q, s.rest = ts ++ s'.rest ∧ s'.eof = s.eof ∧ G sys.inetPton6 k q ts e ∧ 6 ≤ q ∧ Next q s'.peek := by
  unfold parseHead at h
  simp only at h
  have hrest : s.peek.kind ≠ .endOfInput → s.rest = s.peek :: s.next.rest := peek_of_ne_end
  have hnum : s.peek.kind ≠ .endOfInput → ∀ b, baseOf s.peek.kind = some b → ∃ n, NumVal b s.peek.text n :=
    fun hk => hn s.peek (by rw [hrest hk]; exact List.mem_cons_self)
  have hnext : s.peek.kind ≠ .endOfInput → NumTok s.next.rest := fun hk t ht =>
    hn t (by rw [hrest hk]; exact List.mem_cons_of_mem _ ht)
  have one : ∀ {e'}, s.peek.kind ≠ .endOfInput → G sys.inetPton6 k 8 [s.peek] e' →
      ∃ ts q, s.rest = ts ++ s.next.rest ∧ s.next.eof = s.eof ∧ G sys.inetPton6 k q ts e' ∧ 6 ≤ q ∧
        Next q s.next.peek :=
    fun hk hg => ⟨_, 8, hrest hk, rfl, hg, by decide, Next.eight _⟩
  have boolCase : s.peek.kind = .true_ ∨ s.peek.kind = .false_ →
      (makeBooleanConstant s.peek >>= fun e => Res.ok (e, s.next)) = .ok (e, s') →
      ∃ ts q, s.rest = ts ++ s'.rest ∧ s'.eof = s.eof ∧ G sys.inetPton6 k q ts e ∧ 6 ≤ q ∧ Next q s'.peek := by
    intro hk h
    unfold makeBooleanConstant at h
    rw [if_pos hk] at h
    simp only [Res.ok_bind, Res.ok.injEq, Prod.mk.injEq] at h
    obtain ⟨rfl, rfl⟩ := h
    rcases hk with hk | hk
    · refine one (by rw [hk]; decide) ?_
      have : decide (s.peek.kind = .true_) = true := by simp [hk]
      rw [this]; exact G.true_ hk
    · refine one (by rw [hk]; decide) ?_
      have : decide (s.peek.kind = .true_) = false := by simp [hk]
      rw [this]; exact G.false_ hk
  have numCase : ∀ {b}, baseOf s.peek.kind = some b → s.peek.kind ≠ .endOfInput →
      (makeIntegerConstant s.peek >>= fun e => Res.ok (e, s.next)) = .ok (e, s') →
      ∃ ts q, s.rest = ts ++ s'.rest ∧ s'.eof = s.eof ∧ G sys.inetPton6 k q ts e ∧ 6 ≤ q ∧ Next q s'.peek := by
    intro b hb hk h
    obtain ⟨n, hv⟩ := hnum hk b hb
    unfold makeIntegerConstant at h
    simp only [convertNumeral_val hb hv, Res.ok_bind, Res.ok.injEq, Prod.mk.injEq] at h
    obtain ⟨rfl, rfl⟩ := h
    exact one hk (G.numeral hb hv (natDec_canonical n))
  have unCase : ∀ {mk : Token → Expr → Res Expr} {c : Info → Expr → Expr}, s.peek.kind ≠ .endOfInput →
      (∀ a, mk s.peek a = .ok (c (span s.peek.start a.stop) a)) →
      (∀ ts a, G sys.inetPton6 k 6 ts a → G sys.inetPton6 k 6 (s.peek :: ts) (c (span s.peek.start a.stop) a)) →
      (rec 6 s.next >>= fun r => mk s.peek r.1 >>= fun e => Res.ok (e, r.2)) = .ok (e, s') →
      ∃ ts q, s.rest = ts ++ s'.rest ∧ s'.eof = s.eof ∧ G sys.inetPton6 k q ts e ∧ 6 ≤ q ∧ Next q s'.peek := by
    intro mk c hk hmk hc h
    obtain ⟨⟨a, s1⟩, hr, h⟩ := Res.bind_eq_ok.1 h
    simp only [hmk, Res.ok_bind, Res.ok.injEq, Prod.mk.injEq] at h
    obtain ⟨rfl, rfl⟩ := h
    obtain ⟨ts, q, h1, h2, h3, h4, h5⟩ := ih 6 s.next a s1 (hnext hk) (by decide) hr
    have h6 : 6 ≤ q := by rcases h4 with h4 | h4 | h4 <;> omega
    exact ⟨s.peek :: ts, 6, by rw [hrest hk, h1]; rfl, h2, hc ts a (h3.down h6), by decide, h5.next⟩
  split at h
  · exact boolCase (.inl (by assumption)) h
  · exact boolCase (.inr (by assumption)) h
  · rename_i hk; exact numCase (b := 2) (by rw [hk]; rfl) (by rw [hk]; decide) h
  · rename_i hk; exact numCase (b := 8) (by rw [hk]; rfl) (by rw [hk]; decide) h
  · rename_i hk; exact numCase (b := 10) (by rw [hk]; rfl) (by rw [hk]; decide) h
  · rename_i hk; exact numCase (b := 16) (by rw [hk]; rfl) (by rw [hk]; decide) h
  · rename_i hk
    have hk' : s.peek.kind ≠ .endOfInput := by rw [hk]; decide
    split at h
    · rename_i hl
      obtain ⟨r, hr, h⟩ := Res.bind_eq_ok.1 h
      obtain ⟨hs, rfl⟩ := expect_ok hr
      obtain ⟨r, hr, h⟩ := Res.bind_eq_ok.1 h
      obtain ⟨hp, rfl⟩ := expect_ok hr
      obtain ⟨a, ha, h⟩ := Res.bind_eq_ok.1 h
      obtain ⟨n, had, rfl⟩ := address_iff.1 ha
      simp only [Res.ok.injEq, Prod.mk.injEq] at h
      obtain ⟨rfl, rfl⟩ := h
      refine ⟨_, 8, ?_, rfl, G.address hk hl hs hp had (natDec_canonical n), by decide, Next.eight _⟩
      rw [hrest hk', peek_of_ne_end (s := s.next) (by rw [hl]; decide),
        peek_of_ne_end (s := s.next.next) (by rw [hs]; decide),
        peek_of_ne_end (s := s.next.next.next) (by rw [hp]; decide)]
      rfl
    · obtain ⟨⟨ids, s1⟩, hr, h⟩ := Res.bind_eq_ok.1 h
      obtain ⟨ds, h1, h2, h3, h4⟩ := parseDots_sound hr
      obtain ⟨a, ha, h⟩ := Res.bind_eq_ok.1 h
      simp only [Res.ok.injEq, Prod.mk.injEq] at h
      obtain ⟨rfl, rfl⟩ := h
      simp only [List.cons_append, List.nil_append] at h3
      subst h3
      exact ⟨_, 8, by rw [hrest hk', h2]; rfl, h4, makeVariable_sound hk h1 ha, by decide, Next.eight _⟩
  · rename_i hk
    obtain ⟨r, hr, h⟩ := Res.bind_eq_ok.1 h
    obtain ⟨hi, rfl⟩ := expect_ok hr
    simp only [makeAttributeAccess, Res.ok_bind, Res.ok.injEq, Prod.mk.injEq] at h
    obtain ⟨rfl, rfl⟩ := h
    refine ⟨_, 8, ?_, rfl, G.attr hk hi, by decide, Next.eight _⟩
    rw [hrest (by rw [hk]; decide), peek_of_ne_end (s := s.next) (by rw [hi]; decide)]
    rfl
  · rename_i hk
    exact unCase (mk := makeBooleanNegation) (c := Expr.boolNeg) (by rw [hk]; decide)
      (fun a => by unfold makeBooleanNegation; rw [if_pos hk]; rfl) (fun ts a hg => G.not hk hg) h
  · rename_i hk
    exact unCase (mk := makeArithmeticNegation) (c := Expr.arithNeg) (by rw [hk]; decide)
      (fun a => by unfold makeArithmeticNegation; rw [if_pos hk]; rfl) (fun ts a hg => G.neg hk hg) h
  · rename_i hk
    have hk' : s.peek.kind ≠ .endOfInput := by rw [hk]; decide
    obtain ⟨⟨a, s1⟩, hr, h⟩ := Res.bind_eq_ok.1 h
    obtain ⟨q, hq, h⟩ := Res.bind_eq_ok.1 h
    obtain ⟨hp, rfl⟩ := expect_ok hq
    simp only [Res.ok.injEq, Prod.mk.injEq] at h
    obtain ⟨rfl, rfl⟩ := h
    obtain ⟨ts, q, h1, h2, h3, _, _⟩ := ih 0 s.next a s1 (hnext hk') (by decide) hr
    refine ⟨_, 8, ?_, h2, G.paren hk (h3.down (Nat.zero_le _)) hp, by decide, Next.eight _⟩
    rw [hrest hk', h1, peek_of_ne_end (s := s1) (by simp only at hp; rw [hp]; decide)]
    simp
  · exact absurd h parseError_not_ok

theorem parse_sound (sys : Sys) (k : ConstraintKind) (src : ConstraintSource) : ∀ f,
    SoundAbove sys k (parseAbove sys k src f) ∧
    ∀ p ast s e s' ts0 q0, NumTok s.rest → p ≤ 6 → G sys.inetPton6 k q0 ts0 ast → Fits p q0 → Next q0 s.peek →
      parseExt sys k src f p ast s = .ok (e, s') →
      ∃ ts q, s.rest = ts ++ s'.rest ∧ s'.eof = s.eof ∧ G sys.inetPton6 k q (ts0 ++ ts) e ∧ (p = 0 ∨ Fits p q) ∧
        Stop p s'.peek := by
  intro f
  induction f with
  | zero => exact ⟨(fun _ _ _ _ _ _ h => by cases h), (fun _ _ _ _ _ _ _ _ _ _ _ _ h => by cases h)⟩
  | succ f ih =>
    obtain ⟨ihA, ihE⟩ := ih
    refine ⟨?_, ?_⟩
    · intro p s e s' hn hp h
      rw [parseAbove_succ] at h
      obtain ⟨⟨a, s1⟩, hh, h⟩ := Res.bind_eq_ok.1 h
      obtain ⟨ts0, q0, h1, h2, h3, h4, h5⟩ := parseHead_sound ihA hn hh
      obtain ⟨ts, q, h6, h7, h8, h9, h10⟩ := ihE p a s1 e s' ts0 q0 (by rw [h1] at hn; exact hn.tail) hp h3
        (by unfold Fits; omega) h5 h
      exact ⟨ts0 ++ ts, q, by rw [h1, h6, List.append_assoc], h7.trans h2, h8, h9, h10⟩
    · intro p ast s e s' ts0 q0 hn hp hg hf hx h
      rw [parseExt_succ] at h
      split at h
      · rename_i hstop
        simp only [Res.ok.injEq, Prod.mk.injEq] at h
        obtain ⟨rfl, rfl⟩ := h
        exact ⟨[], q0, by simp, rfl, by simpa using hg, .inr hf, hstop.elim .inl (fun h => .inr (.inl h))⟩
      · rename_i hne
        have hk : s.peek.kind ≠ .endOfInput := fun h => hne (.inl h)
        have hrest := peek_of_ne_end hk
        split at h
        · rename_i hext
          split at h
          · exact absurd h parseError_not_ok
          · rename_i hnone
            split at h
            · rename_i hlow
              simp only [Res.ok.injEq, Prod.mk.injEq] at h
              obtain ⟨rfl, rfl⟩ := h
              refine ⟨[], q0, by simp, rfl, by simpa using hg, .inr hf, .inr (.inr ⟨hext, ?_⟩)⟩
              rcases hlow with h | ⟨h, h'⟩
              · exact .inl h
              · exact .inr ⟨h.symm, h'⟩
            · rename_i hhigh
              have hassoc : tokenAssociativity s.peek.kind ≠ .right := by
                generalize s.peek.kind = kd; cases kd <;> decide
              have hlt : p < tokenPrecedence s.peek.kind := by
                rcases Nat.lt_trichotomy p (tokenPrecedence s.peek.kind) with h | h | h
                · exact h
                · exfalso
                  cases ha : tokenAssociativity s.peek.kind with
                  | left => exact hhigh (.inr ⟨h, ha⟩)
                  | right => exact hassoc ha
                  | none => exact hnone ⟨h, ha⟩
                · exact absurd (.inl h) hhigh
              split at h
              · rename_i hsemi
                simp only [Res.ok.injEq, Prod.mk.injEq] at h
                obtain ⟨rfl, rfl⟩ := h
                rw [hsemi.1] at hlt
                have hp0 : p = 0 := by simp [tokenPrecedence] at hlt; exact hlt
                subst hp0
                have hq0 : 1 ≤ q0 := by rcases hf with hf | hf <;> omega
                exact ⟨[s.peek], 0, hrest, rfl, G.trailing (hg.down hq0) hsemi.1, .inl rfl,
                  hsemi.2.elim .inl (fun h => .inr (.inl h))⟩
              · split at h
                · rename_i hdc
                  obtain ⟨r, hr, h⟩ := Res.bind_eq_ok.1 h
                  obtain ⟨hi, rfl⟩ := expect_ok hr
                  simp only [makeFieldAccess, hi, if_true, Res.ok_bind] at h
                  have hq0 : 7 ≤ q0 := by
                    have := hx hext
                    rw [hdc] at this
                    simp [tokenPrecedence] at this
                    omega
                  have hg' := G.field (hg.down hq0) hdc hi
                  have hr2 := peek_of_ne_end (s := s.next) (by rw [hi]; decide)
                  have hn' : NumTok s.next.next.rest := by
                    intro t ht
                    exact hn t (by rw [hrest, hr2]; exact List.mem_cons_of_mem _ (List.mem_cons_of_mem _ ht))
                  obtain ⟨ts, q, h6, h7, h8, h9, h10⟩ := ihE p _ _ e s' _ 7 hn' hp hg' (by unfold Fits; omega)
                    (fun _ => by
                      have := tokenPrecedence_le s.next.next.peek.kind
                      generalize s.next.next.peek.kind = kd at *
                      revert this
                      cases kd <;> simp [tokenPrecedence, tokenAssociativity]) h
                  refine ⟨s.peek :: s.next.peek :: ts, q, ?_, h7, ?_, h9, h10⟩
                  · rw [hrest, hr2, h6]; rfl
                  · simpa using h8
                · rename_i hdc
                  obtain ⟨⟨a, s1⟩, hr, h⟩ := Res.bind_eq_ok.1 h
                  obtain ⟨op, l, hinf, hconv, hl⟩ := infix_of hext hdc
                  simp only [makeBinaryExpression, hconv, Res.ok_bind] at h
                  obtain ⟨_, _, _, _, hge1, hle5, _⟩ := infix_inv hinf
                  have hn1 : NumTok s.next.rest := fun t ht => hn t (by rw [hrest]; exact List.mem_cons_of_mem _ ht)
                  obtain ⟨us, q1, h1, h2, h3, h4, h5⟩ := ihA _ s.next a s1 hn1 (by omega) hr
                  have hq1 : tokenPrecedence s.peek.kind + 1 ≤ q1 := by
                    rcases h4 with h4 | h4 | h4 <;> omega
                  have hl0 : l ≤ q0 := by
                    have := hx hext
                    rcases hl with ⟨hl, ha⟩ | ⟨hl, ha⟩
                    · rcases this with h | h <;> omega
                    · rcases this with h | h
                      · omega
                      · rw [ha] at h; cases h.2
                  have hg' := G.bin hinf (hg.down hl0) (h3.down hq1)
                  obtain ⟨ts, q, h6, h7, h8, h9, h10⟩ := ihE p _ s1 e s' _ _ (by rw [h1] at hn1; exact hn1.tail) hp hg'
                    (.inl hlt) h5.next h
                  refine ⟨s.peek :: us ++ ts, q, ?_, h7.trans h2, ?_, h9, h10⟩
                  · rw [hrest, h1, h6]; simp
                  · simpa using h8
        · exact absurd h parseError_not_ok

end P4C
