import Verif.Props.Grammar

/-
Numerals and network addresses: properties C26, C27.
-/

namespace P4C

open Spec

/-- C26: a numeral, in any base and of any length, is converted to its value. -/
theorem C26_value {sys : Sys} {k : ConstraintKind} {src : ConstraintSource} {kd : Kind} {text : Str} {b n : Nat}
    (hs : Spells kd text src.str) (hb : baseOf kd = some b) (hv : NumVal b text n) :
    ∃ e, parseConstraint sys k src = .ok e ∧ abs e = some (.int n) := by
  have hi : kd ≠ .id := by rintro rfl; cases hb
  have ht : (tokenize src).map kindText = [(kd, text)] ++ [(.endOfInput, [])] := by
    have := tokensOf_tok (s := []) hs (by rw [List.append_nil]; exact chosen_alone hs fun e => absurd e hi)
    rw [List.append_nil] at this
    rw [tokens_src, this, tokensOf_eq (l := {}) .eof]
    rfl
  obtain ⟨toks, last, _, h2, _, h4⟩ := parseConstraint_tokens (sys := sys) (k := k) ht
  obtain ⟨t, rfl, h5, h6⟩ := map_one_inv h2
  refine ⟨_, (h4 _).2 (G.down (.numeral (by rw [h5]; exact hb) (by rw [h6]; exact hv) (natDec_canonical n)) (by omega)), ?_⟩
  simp only [abs, decimal_natDec, Option.map_some]

/-- The hypotheses of C26 are met: every spelling of a numeral has a value. -/
theorem C26_value_exists {kd : Kind} {text s : Str} {b : Nat} (hs : Spells kd text s) (hb : baseOf kd = some b) :
    ∃ n, NumVal b text n := spells_numVal hs hb

example : Spells .hexadec c!"00fF" c!"0X00fF" ∧ baseOf .hexadec = some 16 ∧ NumVal 16 c!"00fF" 255 := by
  refine ⟨.hexadec (.inr rfl) (by simp) (by unfold HexDigit Digit; decide), rfl, ?_⟩
  have h0 : NumVal 16 c!"0" 0 := .one (by decide) (by decide)
  have h1 : NumVal 16 c!"00" 0 := NumVal.snoc (c := '0') (d := 0) h0 (by decide) (by decide)
  have h2 : NumVal 16 c!"00f" 15 := NumVal.snoc (c := 'f') (d := 15) h1 (by decide) (by decide)
  exact NumVal.snoc (c := 'F') (d := 15) h2 (by decide) (by decide)

/-- C26: numerals of equal value are interchangeable: texts whose tokens differ only in such numerals are
parsed to the same constraint. -/
theorem C26_interchangeable {sys : Sys} {k : ConstraintKind} {src src' : ConstraintSource}
    (h : SameToks (tokenize src) (tokenize src')) (s : SExpr) :
    (∃ e, parseConstraint sys k src = .ok e ∧ abs e = some s) ↔
      (∃ e, parseConstraint sys k src' = .ok e ∧ abs e = some s) := by
  constructor
  · rintro ⟨e, h1, h2⟩
    obtain ⟨e', h3, h4⟩ := same_parse h h1
    exact ⟨e', h3, h4.trans h2⟩
  · rintro ⟨e, h1, h2⟩
    obtain ⟨e', h3, h4⟩ := same_parse h.symm h1
    exact ⟨e', h3, h4.trans h2⟩

example : abs (Ex.expr c!"ex == 0xFF") = abs (Ex.expr c!"ex == 0b0011111111") ∧
    abs (Ex.expr c!"ex == 0xFF") = some (.cmp .eq (.key c!"ex") (.int 255)) := by decide +kernel

/-- C27: an address literal `type('text')` denotes the value of the address if there is one, and is rejected
with InvalidArgument otherwise. -/
theorem C27_address {sys : Sys} {k : ConstraintKind} {src : ConstraintSource} {ty text : Str}
    (h : (tokenize src).map kindText =
      [(.id, ty), (.lpar, c!"("), (.string, text), (.rpar, c!")"), (.endOfInput, [])]) :
    (∃ n e, Address sys.inetPton6 ty text n ∧ parseConstraint sys k src = .ok e ∧ abs e = some (.int n)) ∨
      ((∀ n, ¬ Address sys.inetPton6 ty text n) ∧ parseConstraint sys k src = .err .invalidArgument) := by
  obtain ⟨t, y, h1, ht, htx, h2⟩ := map_cons_inv h
  obtain ⟨l, y, rfl, hl, _, h3⟩ := map_cons_inv h2
  obtain ⟨a, y, rfl, ha, hax, h4⟩ := map_cons_inv h3
  obtain ⟨r, y, rfl, hr, _, h5⟩ := map_cons_inv h4
  obtain ⟨z, rfl, hz, _⟩ := map_one_inv h5
  rcases address_total sys ty text t.start r.stop with ⟨e, he⟩ | he
  · obtain ⟨n, hn, rfl⟩ := address_iff.1 he
    refine .inl ⟨n, _, hn, parseConstraint_split.2 ⟨[t, l, a, r], z, h1, hz,
      G.down (.address ht hl ha hr (by rw [htx, hax]; exact hn) (natDec_canonical n)) (by omega)⟩, ?_⟩
    simp only [abs, decimal_natDec, Option.map_some]
  · refine .inr ⟨?_, ?_⟩
    · intro n hn
      have := (address_iff (a := t.start) (b := r.stop)).2 ⟨n, hn, rfl⟩
      rw [he] at this
      cases this
    · unfold parseConstraint parseTokens
      rw [h1]
      rw [parseAbove_succ]
      unfold parseHead
      simp only [Stream.peek, Stream.next, List.tail_cons, ht, hl, if_true, expectTokenKind, ha, hr, Res.ok_bind,
        htx, hax, he, ne_eq, not_true_eq_false, if_false]
      rfl

/-- Addresses are unambiguous. -/
theorem C27_unique {sys : Sys} {ty text : Str} {m n : Nat} (h : Address sys.inetPton6 ty text m)
    (h' : Address sys.inetPton6 ty text n) : m = n := by
  have h1 := (address_iff (a := {}) (b := {})).2 ⟨m, h, rfl⟩
  have h2 := (address_iff (a := {}) (b := {})).2 ⟨n, h', rfl⟩
  rw [h1] at h2
  injection h2 with h2
  injection h2 with _ h2
  have := congrArg decimal? h2
  rw [decimal_natDec, decimal_natDec] at this
  exact Option.some.inj this

example : (tokenize { str := c!"ipv4('10.0.0.1')" }).map kindText =
      [(.id, c!"ipv4"), (.lpar, c!"("), (.string, c!"10.0.0.1"), (.rpar, c!")"), (.endOfInput, [])] ∧
    abs (Ex.expr c!"ipv4('10.0.0.1') == mac('00:00:0a:0:0:1')") =
      some (.cmp .eq (.int (10 * 2 ^ 24 + 1)) (.int (10 * 2 ^ 24 + 1))) ∧
    parseConstraint Ex.sys .table { str := c!"ipv4('10.0.0.256')" } = .err .invalidArgument ∧
    parseConstraint Ex.sys .table { str := c!"mac('00:00:0a:0:0')" } = .err .invalidArgument := by decide +kernel

end P4C
