import Verif.Proofs.ParseComplete
import Verif.Proofs.Lexed
/-!
# Outcomes of the parser
-/
namespace P4C
open Spec

/-- Success, InvalidArgument, or an error reported at one of the tokens of `s` or at its end. -/
def Outcome {α : Type} (src : ConstraintSource) (s : Stream) (r : Res α) : Prop :=
  (∃ a, r = .ok a) ∨ r = .err .invalidArgument ∨
    ∃ t, (t ∈ s.rest ∨ t = ⟨.endOfInput, [], s.eof, s.eof⟩) ∧ r = parseError t src

theorem parseError_bind {α β : Type} (t : Token) (src : ConstraintSource) (f : α → Res β) :
    (parseError t src >>= f) = parseError t src := by
  unfold parseError quotingError
  cases quoteSub src t.start t.stop <;> rfl

theorem Outcome.ok {α : Type} {src : ConstraintSource} {s : Stream} (a : α) : Outcome src s (.ok a) := .inl ⟨a, rfl⟩

theorem Outcome.bind {α β : Type} {src : ConstraintSource} {s : Stream} {r : Res α} {f : α → Res β}
    (h : Outcome src s r) (hf : ∀ a, r = .ok a → Outcome src s (f a)) : Outcome src s (r >>= f) := by
  rcases h with ⟨a, rfl⟩ | rfl | ⟨t, ht, rfl⟩
  · exact hf a rfl
  · exact .inr (.inl rfl)
  · exact .inr (.inr ⟨t, ht, parseError_bind _ _ _⟩)

/-- The tokens of `s'` are tokens of `s`. -/
def SubStream (s' s : Stream) : Prop := s'.eof = s.eof ∧ ∃ ts, s.rest = ts ++ s'.rest

theorem SubStream.trans {a b c : Stream} (h : SubStream a b) (h' : SubStream b c) : SubStream a c := by
  obtain ⟨e1, ts, h1⟩ := h
  obtain ⟨e2, us, h2⟩ := h'
  exact ⟨e1.trans e2, us ++ ts, by rw [h2, h1, List.append_assoc]⟩

theorem SubStream.next (s : Stream) : SubStream s.next s := by
  refine ⟨rfl, ?_⟩
  obtain ⟨rest, eof⟩ := s
  cases rest with
  | nil => exact ⟨[], rfl⟩
  | cons t ts => exact ⟨[t], rfl⟩

theorem SubStream.numTok {s' s : Stream} (h : SubStream s' s) (hn : NumTok s.rest) : NumTok s'.rest := by
  obtain ⟨_, ts, e⟩ := h
  rw [e] at hn
  exact hn.tail

theorem SubStream.length {s' s : Stream} (h : SubStream s' s) : s'.rest.length ≤ s.rest.length := by
  obtain ⟨_, ts, e⟩ := h
  rw [e, List.length_append]
  omega

theorem Outcome.sub {α : Type} {src : ConstraintSource} {s' s : Stream} {r : Res α} (h : Outcome src s' r)
    (hs : SubStream s' s) : Outcome src s r := by
  rcases h with h | h | ⟨t, ht, h⟩
  · exact .inl h
  · exact .inr (.inl h)
  · refine .inr (.inr ⟨t, ?_, h⟩)
    obtain ⟨e, ts, e'⟩ := hs
    rcases ht with ht | ht
    · exact .inl (by rw [e']; exact List.mem_append_right _ ht)
    · exact .inr (by rw [ht, e])

theorem peek_mem (s : Stream) : s.peek ∈ s.rest ∨ s.peek = ⟨.endOfInput, [], s.eof, s.eof⟩ := by
  obtain ⟨rest, eof⟩ := s
  cases rest with
  | nil => exact .inr rfl
  | cons t ts => exact .inl List.mem_cons_self

theorem Outcome.error {α : Type} (src : ConstraintSource) (s : Stream) :
    Outcome src s (parseError s.peek src : Res α) := .inr (.inr ⟨_, peek_mem s, rfl⟩)

theorem outcome_expect (kd : Kind) (src : ConstraintSource) (s : Stream) :
    Outcome src s (expectTokenKind kd src s) := by
  unfold expectTokenKind
  simp only
  split
  · exact Outcome.error src s
  · exact Outcome.ok _

theorem outcome_dots (src : ConstraintSource) : ∀ (f : Nat) (ids : List Token) (s : Stream), s.rest.length < f →
    Outcome src s (parseDots src f ids s)
  | 0, _, _, h => by omega
  | f + 1, ids, s, h => by
    unfold parseDots
    split
    · rename_i hd
      refine Outcome.bind ((outcome_expect _ src s.next).sub (SubStream.next s)) ?_
      intro a ha
      obtain ⟨hk, rfl⟩ := expect_ok ha
      refine (outcome_dots src f _ s.next.next ?_).sub ((SubStream.next _).trans (SubStream.next _))
      have h1 := peek_of_ne_end (s := s) (by rw [hd]; decide)
      have h2 := (SubStream.next s.next).length
      have : s.rest.length = s.next.rest.length + 1 := by rw [h1]; rfl
      omega
    · exact Outcome.ok _

theorem outcome_head {sys : Sys} {k : ConstraintKind} {src : ConstraintSource} {s : Stream}
    {rec : Nat → Stream → Res (Expr × Stream)} (hn : NumTok s.rest)
    (hrec : ∀ p s', NumTok s'.rest → p ≤ 6 → s'.rest.length < s.rest.length → Outcome src s' (rec p s')) 
    (hsound : SoundAbove sys k rec) : Outcome src s (parseHead sys k src rec s) := by
  have hlen : s.peek.kind ≠ .endOfInput → s.next.rest.length < s.rest.length := by
    intro hk
    rw [peek_of_ne_end hk]
    exact Nat.lt_succ_self _
  have hnn : NumTok s.next.rest := (SubStream.next s).numTok hn
  have boolCase : s.peek.kind = .true_ ∨ s.peek.kind = .false_ →
      Outcome src s (makeBooleanConstant s.peek >>= fun e => Res.ok (e, s.next)) := by
    intro hk
    unfold makeBooleanConstant
    rw [if_pos hk]
    exact Outcome.ok _
  have numCase : ∀ {b}, baseOf s.peek.kind = some b →
      Outcome src s (makeIntegerConstant s.peek >>= fun e => Res.ok (e, s.next)) := by
    intro b hb
    have hk : s.peek.kind ≠ .endOfInput := by intro h; rw [h] at hb; cases hb
    obtain ⟨n, hv⟩ := hn s.peek (by rw [peek_of_ne_end hk]; exact List.mem_cons_self) b hb
    unfold makeIntegerConstant
    rw [convertNumeral_val hb hv]
    exact Outcome.ok _
  have unCase : ∀ {mk : Token → Expr → Res Expr}, s.peek.kind ≠ .endOfInput → (∀ a, ∃ b, mk s.peek a = .ok b) →
      Outcome src s (rec 6 s.next >>= fun r => mk s.peek r.1 >>= fun e => Res.ok (e, r.2)) := by
    intro mk hk hmk
    refine Outcome.bind ((hrec 6 s.next hnn (by decide) (hlen hk)).sub (SubStream.next s)) fun a _ => ?_
    obtain ⟨b, hb⟩ := hmk a.1
    rw [hb]
    exact Outcome.ok _
  unfold parseHead
  simp only
  split
  · exact boolCase (.inl (by assumption))
  · exact boolCase (.inr (by assumption))
  · rename_i hk; exact numCase (b := 2) (by rw [hk]; rfl)
  · rename_i hk; exact numCase (b := 8) (by rw [hk]; rfl)
  · rename_i hk; exact numCase (b := 10) (by rw [hk]; rfl)
  · rename_i hk; exact numCase (b := 16) (by rw [hk]; rfl)
  · rename_i hk
    split
    · refine Outcome.bind ((outcome_expect _ src s.next.next).sub ((SubStream.next _).trans (SubStream.next _))) fun a ha => ?_
      obtain ⟨_, rfl⟩ := expect_ok ha
      refine Outcome.bind ((outcome_expect _ src s.next.next.next).sub
        ((SubStream.next _).trans ((SubStream.next _).trans (SubStream.next _)))) fun a ha => ?_
      obtain ⟨_, rfl⟩ := expect_ok ha
      refine Outcome.bind ?_ fun _ _ => Outcome.ok _
      rcases address_total sys s.peek.text s.next.next.peek.text s.peek.start s.next.next.next.peek.stop with h | h
      · exact .inl h
      · exact .inr (.inl h)
    · refine Outcome.bind ((outcome_dots src _ [s.peek] s.next (by omega)).sub (SubStream.next s)) fun a ha => ?_
      obtain ⟨ds, h1, _, h3, _⟩ := parseDots_sound ha
      rw [h3]
      simp only [List.cons_append, List.nil_append]
      rw [makeVariable_complete hk h1]
      exact Outcome.ok _
  · refine Outcome.bind ((outcome_expect _ src s.next).sub (SubStream.next s)) fun a _ => ?_
    exact Outcome.ok _
  · rename_i hk
    exact unCase (mk := makeBooleanNegation) (by rw [hk]; decide)
      (fun a => ⟨_, by unfold makeBooleanNegation; rw [if_pos hk]⟩)
  · rename_i hk
    exact unCase (mk := makeArithmeticNegation) (by rw [hk]; decide)
      (fun a => ⟨_, by unfold makeArithmeticNegation; rw [if_pos hk]⟩)
  · rename_i hk
    refine Outcome.bind ((hrec 0 s.next hnn (by decide) (hlen (by rw [hk]; decide))).sub (SubStream.next s)) fun a ha => ?_
    obtain ⟨e, s1⟩ := a
    obtain ⟨ts, q, h1, h2, _⟩ := hsound 0 s.next e s1 hnn (by decide) ha
    refine Outcome.bind ((outcome_expect _ src s1).sub (SubStream.trans ⟨h2, ts, h1⟩ (SubStream.next s))) fun _ _ => Outcome.ok _
  · exact Outcome.error src s

theorem outcome_parse (sys : Sys) (k : ConstraintKind) (src : ConstraintSource) : ∀ f,
    (∀ p s, NumTok s.rest → p ≤ 6 → s.rest.length < f → Outcome src s (parseAbove sys k src f p s)) ∧
    (∀ p e s, NumTok s.rest → p ≤ 6 → s.rest.length < f → Outcome src s (parseExt sys k src f p e s)) := by
  intro f
  induction f with
  | zero => exact ⟨(fun _ _ _ _ h => by omega), (fun _ _ _ _ _ h => by omega)⟩
  | succ f ih =>
    obtain ⟨ihA, ihE⟩ := ih
    have hs := (parse_sound sys k src f).1
    refine ⟨?_, ?_⟩
    · intro p s hn hp hl
      rw [parseAbove_succ]
      refine Outcome.bind (outcome_head hn (fun p s' h1 h2 h3 => ihA p s' h1 h2 (by omega)) hs) fun a ha => ?_
      obtain ⟨e, s1⟩ := a
      obtain ⟨ts, q, h1, h2, h3, _⟩ := parseHead_sound hs hn ha
      have hsub : SubStream s1 s := ⟨h2, ts, h1⟩
      refine (ihE p e s1 (hsub.numTok hn) hp ?_).sub hsub
      obtain ⟨t, ts', rfl, _⟩ := G_head h3
      have := congrArg List.length h1
      simp only [List.cons_append, List.length_cons, List.length_append] at this
      omega
    · intro p e s hn hp hl
      rw [parseExt_succ]
      split
      · exact Outcome.ok _
      · rename_i hne
        have hlen : s.next.rest.length < s.rest.length := by
          rw [peek_of_ne_end (s := s) (fun h => hne (.inl h))]
          exact Nat.lt_succ_self _
        have hnn := (SubStream.next s).numTok hn
        split
        · rename_i hext
          split
          · exact Outcome.error src s
          · split
            · exact Outcome.ok _
            · rename_i hnone hhigh
              split
              · exact Outcome.ok _
              · split
                · refine Outcome.bind ((outcome_expect _ src s.next).sub (SubStream.next s)) fun a ha => ?_
                  obtain ⟨hi, rfl⟩ := expect_ok ha
                  simp only [makeFieldAccess, hi, if_true, Res.ok_bind]
                  have hsub := (SubStream.next s.next).trans (SubStream.next s)
                  have := (SubStream.next s.next).length
                  exact (ihE p _ _ (hsub.numTok hn) hp (by omega)).sub hsub
                · rename_i hdc
                  obtain ⟨op, l, hinf, hconv, _⟩ := infix_of hext hdc
                  obtain ⟨_, _, _, _, _, h5, _⟩ := infix_inv hinf
                  refine Outcome.bind ((ihA _ s.next hnn (by omega) (by omega)).sub (SubStream.next s)) fun a ha => ?_
                  obtain ⟨e', s1⟩ := a
                  obtain ⟨ts, q, h1, h2, _⟩ := hs _ s.next e' s1 hnn (by omega) ha
                  simp only [makeBinaryExpression, hconv, Res.ok_bind]
                  have hsub : SubStream s1 s.next := ⟨h2, ts, h1⟩
                  have := hsub.length
                  exact (ihE p _ s1 (hsub.numTok hnn) hp (by omega)).sub (hsub.trans (SubStream.next s))
        · exact Outcome.error src s

/-- Outcomes of `parseTokens`. -/
theorem outcome_tokens {sys : Sys} {k : ConstraintKind} {src : ConstraintSource} {ts : List Token} (hn : NumTok ts) :
    Outcome src ⟨ts, eofLoc ts⟩ (parseTokens sys k ts src) := by
  unfold parseTokens
  refine Outcome.bind ((outcome_parse sys k src _).1 0 ⟨ts, eofLoc ts⟩ hn (by decide) (by show ts.length < _; omega)) fun a ha => ?_
  obtain ⟨e, s⟩ := a
  obtain ⟨us, q, h1, h2, _⟩ := (parse_sound sys k src _).1 0 ⟨ts, eofLoc ts⟩ e s hn (by decide) ha
  exact Outcome.bind ((outcome_expect _ src s).sub ⟨h2, us, h1⟩) fun _ _ => Outcome.ok _

theorem Outcome.ne_oof {α : Type} {src : ConstraintSource} {s : Stream} {r : Res α} (h : Outcome src s r)
    (hq : ∀ a b, quoteSub src a b ≠ .oof) : r ≠ .oof := by
  rcases h with ⟨a, rfl⟩ | rfl | ⟨t, _, rfl⟩
  · simp
  · simp
  · unfold parseError quotingError
    have := hq t.start t.stop
    cases h : quoteSub src t.start t.stop <;> simp_all

theorem discardLines_ne_oof : ∀ n s, discardLines n s ≠ .oof
  | 0, s => by simp [discardLines]
  | n + 1, s => by
    unfold discardLines
    split
    · exact discardLines_ne_oof n _
    · simp

theorem contextLines_ne_oof (pre : Str) : ∀ n s, contextLines pre n s ≠ .oof
  | 0, s => by simp [contextLines]
  | n + 1, s => by
    unfold contextLines
    split
    · rename_i rest _
      have := contextLines_ne_oof pre n rest
      cases h : contextLines pre n rest <;> simp_all
    · simp

theorem stringFill_ne_oof (n : Int) (c : Char) : stringFill n c ≠ .oof := by
  unfold stringFill
  split <;> simp

theorem bind_ne_oof {α β : Type} {r : Res α} {f : α → Res β} (h : r ≠ .oof) (hf : ∀ a, f a ≠ .oof) :
    (r >>= f) ≠ .oof := by
  cases r with
  | ok a => exact hf a
  | err c => simp
  | crash => simp
  | oof => exact absurd rfl h

theorem quote_ne_oof (src : ConstraintSource) (a b : Loc) : quote src a b ≠ .oof := by
  unfold quote
  split
  · simp
  · refine bind_ne_oof (discardLines_ne_oof _ _) fun s => ?_
    refine bind_ne_oof (contextLines_ne_oof _ _ _) fun r => ?_
    dsimp only
    cases getline r.2 with
    | none => simp
    | some x => exact bind_ne_oof (stringFill_ne_oof _ _) fun _ => bind_ne_oof (stringFill_ne_oof _ _) fun _ => by simp

theorem quoteSub_ne_oof (src : ConstraintSource) (a b : Loc) : quoteSub src a b ≠ .oof := by
  unfold quoteSub
  split
  · simp
  · refine bind_ne_oof ?_ fun _ => bind_ne_oof (quote_ne_oof _ _ _) fun _ => by simp
    unfold explainLoc
    split <;> simp

/-- The parser accepts exactly the grammar. -/
theorem parseTokens_iff {sys : Sys} {k : ConstraintKind} {src : ConstraintSource} {ts : List Token} {e : Expr}
    (hn : NumTok ts) : parseTokens sys k ts src = .ok e ↔ Constraint sys.inetPton6 k ts e := by
  constructor
  · intro h
    obtain ⟨⟨e', s⟩, ha, h⟩ := Res.bind_eq_ok.1 h
    obtain ⟨us, q, h1, h2, h3, h4, h5⟩ := (parse_sound sys k src _).1 0 ⟨ts, eofLoc ts⟩ e' s hn (by decide) ha
    obtain ⟨r, hr, h⟩ := Res.bind_eq_ok.1 h
    cases h
    obtain ⟨hk, _⟩ := expect_ok hr
    refine ⟨us, s.rest, h1, h3.down (Nat.zero_le _), ?_⟩
    cases hs : s.rest with
    | nil => exact .inl rfl
    | cons t b =>
      refine .inr ⟨t, b, rfl, ?_⟩
      have : s.peek = t := by unfold Stream.peek; rw [hs]
      rw [← this]; exact hk
  · rintro ⟨a, b, rfl, hg, hb⟩
    have hpeek : (Stream.peek ⟨b, eofLoc (a ++ b)⟩).kind = .endOfInput := by
      rcases hb with rfl | ⟨t, b', rfl, ht⟩
      · rfl
      · exact ht
    obtain ⟨f, hf⟩ := (complete (src := src) hg).2 rfl b (eofLoc (a ++ b)) (.inl hpeek)
    have ho := (outcome_parse sys k src (2 * (a ++ b).length + 2)).1 0 ⟨a ++ b, eofLoc (a ++ b)⟩ hn (by decide)
      (by show (a ++ b).length < _; omega)
    have hne := ho.ne_oof (quoteSub_ne_oof src)
    have m1 := (parse_mono (sys := sys) (k := k) (src := src)
      (Nat.le_max_left f (2 * (a ++ b).length + 2))).1 0 ⟨a ++ b, eofLoc (a ++ b)⟩
    have m2 := (parse_mono (sys := sys) (k := k) (src := src)
      (Nat.le_max_right f (2 * (a ++ b).length + 2))).1 0 ⟨a ++ b, eofLoc (a ++ b)⟩
    have e1 := m1.ok hf
    have e2 : parseAbove sys k src (2 * (a ++ b).length + 2) 0 ⟨a ++ b, eofLoc (a ++ b)⟩ =
        .ok (e, ⟨b, eofLoc (a ++ b)⟩) := by
      rcases m2 with h | h
      · exact absurd h hne
      · rw [h, e1]
    unfold parseTokens
    rw [e2, Res.ok_bind]
    dsimp only
    rw [expect_eq hpeek]
    rfl

end P4C
