import Verif.Proofs.Diagnose
import Verif.Proofs.Follow
import Verif.Props.Quoting

/-
Messages of syntax errors: properties C52, C53.
-/

namespace P4C

open Spec

/-! ### C52: syntax errors are reported at the first token that cannot continue the constraint -/

/-- C52: an error of the parser quotes the first token that cannot continue the constraint, with a justified complaint
about it. If an address literal before this token is not an address, the error is about the first one of these, and says
what is wrong with it. Missing from the full statement: the latter messages do not quote anything (`C52_fails`); and texts
with lone carriage returns (`C43_fails`). -/
theorem C52_culprit_partial {x : Texts} {sys : Sys} {k : ConstraintKind} {src : ConstraintSource} (hcr : CrLf src.str)
    (hset : src.loc.src ≠ .notSet) (hline : 0 ≤ src.loc.line) (hcol : 0 ≤ src.loc.col) {c : Code} {m : Str}
    (h : parseConstraintM x sys k src = .err c m) :
    c = .invalidArgument ∧
    ((∃ before t after quotation complaint, Culprit (tokenize src) before t after ∧
        AddressesOk sys.inetPton6 (tokenize src) before.length ∧
        Quotation src t.start t.stop quotation ∧ Complaint (before.map (·.kind)) t complaint ∧
        m = quotation ++ c!"Parse error: " ++ complaint) ∨
      ∃ before i s after, Literal (tokenize src) before i s after ∧
        AddressesOk sys.inetPton6 (tokenize src) before.length ∧ AddressFault sys.inetPton6 i.text s.text m) := by
  obtain ⟨h1, h2⟩ := diagnose hcr hset hline hcol h
  refine ⟨h1, ?_⟩
  rcases h2 with ⟨before, i, s, after, hl, hf, hok⟩ | ⟨before, t, after, d, q, hc, hok, hd, hq, hm⟩
  · exact .inr ⟨before, i, s, after, hl, hok, hf⟩
  · exact .inl ⟨before, t, after, q, _, hc, hok, hq, reason_complaint hd, hm⟩

/-- C52: a text with such a token, or with a malformed address literal, is never accepted. -/
theorem C52_rejected {sys : Sys} {k : ConstraintKind} {src : ConstraintSource} {e : Expr}
    (h : parseConstraint sys k src = .ok e) :
    (∀ before t after, ¬ Culprit (tokenize src) before t after) ∧
      ∀ before i s after m, Literal (tokenize src) before i s after → ¬ AddressFault sys.inetPton6 i.text s.text m := by
  refine ⟨fun b t a hc => culprit_rejected hc e h, fun b i s a m hl hf => ?_⟩
  obtain ⟨l, r, he, hk⟩ := hl
  obtain ⟨n, hn⟩ := accepted_addresses h b i s a ⟨l, r, he, hk⟩ (by rw [he]; simp)
  exact (addressFault_not hf).1 n hn

/-- C52: the two kinds of messages exclude each other, and there is one message about an address literal. -/
theorem C52_exclusive {pton : Str → Option Bytes} {ts b b' a a' : List Token} {t i s : Token} {m : Str}
    (hl : Literal ts b i s a) (hok : AddressesOk pton ts b.length) (hf : AddressFault pton i.text s.text m) :
    (Culprit ts b' t a' → ¬ AddressesOk pton ts b'.length) ∧
      ∀ {i' s' m'}, Literal ts b' i' s' a' → AddressesOk pton ts b'.length → AddressFault pton i'.text s'.text m' →
        b = b' ∧ i = i' ∧ s = s' ∧ a = a' ∧ m = m' := by
  constructor
  · intro hc h
    obtain ⟨n, hn⟩ := h b i s a hl (by have := literal_before hc hl; omega)
    exact (addressFault_not hf).1 n hn
  · intro i' s' m' hl' hok' hf'
    have hlen : b.length = b'.length := by
      rcases Nat.lt_trichotomy b.length b'.length with h | h | h
      · obtain ⟨n, hn⟩ := hok' b i s a hl h
        exact absurd hn ((addressFault_not hf).1 n)
      · exact h
      · obtain ⟨n, hn⟩ := hok b' i' s' a' hl' h
        exact absurd hn ((addressFault_not hf').1 n)
    obtain ⟨rfl, rfl, rfl, rfl⟩ := literal_unique hl hl' hlen
    exact ⟨rfl, rfl, rfl, rfl, (addressFault_not hf').2 _ hf⟩

/-- C52: there is at most one such token. -/
theorem C52_unique {ts b b' a a' : List Token} {t t' : Token} (h : Culprit ts b t a) (h' : Culprit ts b' t' a') :
    b = b' ∧ t = t' ∧ a = a' :=
  culprit_unique h h'

/-- C52: there is one complaint about a token in a place. -/
theorem C52_complaint {before : List Kind} {t : Token} {s s' : Str} (h : Complaint before t s) (h' : Complaint before t s') :
    s = s' :=
  complaint_unique h h'

/-- The messages modelled here are those of the errors of C43 and the other properties. -/
theorem C52_same_errors (x : Texts) (sys : Sys) (k : ConstraintKind) (src : ConstraintSource) :
    (parseConstraintM x sys k src).erase = parseConstraint sys k src :=
  erase_parseConstraint x sys k src

/-- Unmodelled texts, for examples. -/
def Ex.texts : Texts :=
  ⟨fun _ _ _ => [], [], fun _ => [], fun _ => [], fun _ => [], fun _ => [], fun _ => [], fun _ => [], fun _ => []⟩

theorem Ex.crlf {s : Str} (h : s.count '\r' = 0) : CrLf (Ex.src s).str := by
  intro a b e
  rw [show (Ex.src s).str = s from rfl] at e
  rw [e] at h
  simp at h

theorem Ex.viable_lt : Viable [.id, .lt, .id] := by
  have s : ∀ {n}, n ≤ 8 → Shape n [.id] := fun h => (Shape.name .one).down h
  exact ⟨[.endOfInput], _, (Shape.bin (ks := [.id]) (us := [.id]) Infix.lt (s (by decide)) (s (by decide))).down (by decide), rfl⟩

/-- Messages about a token, about associativity, and about a character. -/
example :
    parseConstraintM Ex.texts Ex.sys .table (Ex.src c!"a == 1 &&\n(b !") = .err .invalidArgument
      (c!"In @entry_restriction of table 't'; at offset line 2, column 4:\n  | a == 1 &&\n2 | (b !\n  |    ^\nParse error: " ++
        c!"unexpected token: !. Expected <END_OF_INPUT>, ), ::, &&, ;, ||, ->, ==, !=, >, >=, <, or <=.") ∧
    parseConstraintM Ex.texts Ex.sys .table (Ex.src c!"a < b < c") = .err .invalidArgument
      (c!"In @entry_restriction of table 't'; at offset line 1, column 7:\n1 | a < b < c\n  |       ^\nParse error: " ++
        c!"operator < is non-associative; enclose expression to the left of the operator in '(' and ')' to disambiguate?") ∧
    parseConstraintM Ex.texts Ex.sys .table (Ex.src c!"a & b") = .err .invalidArgument
      (c!"In @entry_restriction of table 't'; at offset line 1, column 3:\n1 | a & b\n  |   ^\nParse error: " ++
        c!"unexpected character at or after '&'.") := by
  decide +kernel

/-- The hypotheses hold for these. -/
example : CrLf (Ex.src c!"a < b < c").str ∧ (Ex.src c!"a < b < c").loc.src ≠ .notSet ∧
    0 ≤ (Ex.src c!"a < b < c").loc.line ∧ 0 ≤ (Ex.src c!"a < b < c").loc.col :=
  ⟨Ex.crlf (by decide), by simp [Ex.src], by simp [Ex.src], by simp [Ex.src]⟩

/-- The culprit of `a < b < c` is the second `<`. -/
example : ∃ t after, Culprit (tokenize (Ex.src c!"a < b < c")) ((tokenize (Ex.src c!"a < b < c")).take 3) t after ∧
    t.start.col = 6 := by
  refine ⟨((tokenize (Ex.src c!"a < b < c")).drop 3).headD ⟨.id, [], {}, {}⟩, (tokenize (Ex.src c!"a < b < c")).drop 4,
    ⟨by decide +kernel, ?_, ?_⟩, by decide +kernel⟩
  · rw [show ((tokenize (Ex.src c!"a < b < c")).take 3).map (·.kind) = [.id, .lt, .id] by decide +kernel]
    exact Ex.viable_lt
  · rw [show (((tokenize (Ex.src c!"a < b < c")).take 3) ++ [((tokenize (Ex.src c!"a < b < c")).drop 3).headD
      ⟨.id, [], {}, {}⟩]).map (·.kind) = [.id, .lt, .id, .lt] by decide +kernel]
    exact fail_not_viable (bad := fun _ => False) (f := 5) (a := [.id, .lt, .id]) (r := []) (d := .nonAssoc) rfl

/-- In `a == ipv4('1.2.256.4')`, there is no literal before the malformed one, whose third part is too large. -/
example (pton : Str → Option Bytes) : ∃ i s a m,
    Literal (tokenize (Ex.src c!"a == ipv4('1.2.256.4')")) ((tokenize (Ex.src c!"a == ipv4('1.2.256.4')")).take 2) i s a ∧
      AddressFault pton i.text s.text m ∧ m = c!"Invalid base10 string. Buffer size of '256' exceeded 255" := by
  generalize hts : tokenize (Ex.src c!"a == ipv4('1.2.256.4')") = ts
  refine ⟨(ts.drop 2).headD ⟨.id, [], {}, {}⟩, (ts.drop 4).headD ⟨.id, [], {}, {}⟩, ts.drop 6, _,
    ⟨(ts.drop 3).headD ⟨.id, [], {}, {}⟩, (ts.drop 5).headD ⟨.id, [], {}, {}⟩, ?_, ?_, ?_, ?_, ?_, ?_⟩, ?_, rfl⟩
  · subst hts; decide +kernel
  · subst hts; decide +kernel
  · subst hts; decide +kernel
  · subst hts; decide +kernel
  · subst hts; decide +kernel
  · rw [show List.map (·.kind) (ts.take 2 ++ [(ts.drop 2).headD ⟨.id, [], {}, {}⟩, (ts.drop 3).headD ⟨.id, [], {}, {}⟩,
      (ts.drop 4).headD ⟨.id, [], {}, {}⟩, (ts.drop 5).headD ⟨.id, [], {}, {}⟩]) = [.id, .eq, .id, .lpar, .string, .rpar] by
        subst hts; decide +kernel]
    exact ⟨[.endOfInput], _, (Shape.bin (ks := [.id]) (us := [.id, .lpar, .string, .rpar]) Infix.eq
      ((Shape.name .one).down (by decide)) (Shape.address.down (by decide))).down (by decide), rfl⟩
  · rw [show ((ts.drop 2).headD ⟨.id, [], {}, {}⟩).text = c!"ipv4" by subst hts; decide +kernel,
      show ((ts.drop 4).headD ⟨.id, [], {}, {}⟩).text = c!"1.2.256.4" by subst hts; decide +kernel]
    have one : ∀ c d, (c, d) ∈ digits → d < 10 → Octet [c] d := fun c d h h' => ⟨.one h h', by simp, by omega⟩
    have v25 : NumVal 10 c!"25" 25 := NumVal.snoc (b := 10) (s := c!"2") (n := 2) (c := '5') (d := 5)
      (.one (by decide) (by decide)) (by decide) (by decide)
    have v256 : NumVal 10 c!"256" 256 := NumVal.snoc (b := 10) (s := c!"25") (n := 25) (c := '6') (d := 6) v25
      (by decide) (by decide)
    refine .ipv4Part (a := [c!"1", c!"2"]) (p := c!"256") (b := [c!"4"]) ⟨by simp, by simp, rfl⟩ rfl ?_
      (.value (s := c!"256") (v := c!"256") (n := 256) (by decide) v256 (by decide) ⟨v256, .inr ?_⟩)
    · intro q hq
      simp only [List.mem_cons, List.not_mem_nil, or_false] at hq
      rcases hq with rfl | rfl
      · exact ⟨1, one '1' 1 (by decide) (by decide)⟩
      · exact ⟨2, one '2' 2 (by decide) (by decide)⟩
    all_goals decide

/-- C52 fails: the message about a malformed address literal neither quotes it nor says where it is. (The address given
has five parts.) -/
theorem C52_fails : parseConstraintM Ex.texts Ex.sys .table (Ex.src c!"true &&\n a == ipv4('1.2.3.4.5')") =
      .err .invalidArgument c!"Invalid length for an IPv4 address: '1.2.3.4.5'. Expected IPv4 address to be 4 bytes." ∧
    parseConstraintM Ex.texts Ex.sys .table (Ex.src c!"true &&\n a == ip4('1.2.3.4')") =
      .err .invalidArgument c!"Invalid network identifier" := by
  decide +kernel

/-! ### C53: the tokens named as expected -/

/-- C53: the tokens that the message names as expected could have followed, except that in a list of several tokens
`->`, comparisons, `)` and the end of the input may be listed wrongly; but some token of the list could have followed.
Which tokens are listed is determined by the tokens before and the one met (`Enumerated`, `C53_determined`).
Missing from the full statement: these exceptions (`C53_fails_listed`); and that all tokens that could have followed are
listed (`C53_fails_missing`). -/
theorem C53_expected_partial {x : Texts} {sys : Sys} {k : ConstraintKind} {src : ConstraintSource} (hcr : CrLf src.str)
    (hset : src.loc.src ≠ .notSet) (hline : 0 ≤ src.loc.line) (hcol : 0 ≤ src.loc.col) {c : Code} {m : Str}
    (h : parseConstraintM x sys k src = .err c m) {before after : List Token} {t : Token}
    (ht : Culprit (tokenize src) before t after) (hk : t.kind ≠ .unexpectedChar)
    (hi : ∀ op n u o, Infix t.kind op n (n + 1) (n + 1) → before.map (·.kind) = u ++ [o] → o ∉ operandEnds)
    (ha : ∀ before i s after, Literal (tokenize src) before i s after → ∃ n, Address sys.inetPton6 i.text s.text n) :
    ∃ quotation list ks, Quotation src t.start t.stop quotation ∧ Listing ks list ∧ Possible (before.map (·.kind)) ks ∧
      Enumerated (before.map (·.kind)) t.kind ks ∧
      m = quotation ++ c!"Parse error: unexpected token: " ++ nameOf t.kind ++ c!". Expected " ++ list ++ c!"." := by
  rcases (C52_culprit_partial hcr hset hline hcol h).2 with ⟨b, t', a, q, text, hc, _, hq, hx, hm⟩ |
    ⟨b, i, s, a, hl, _, hf⟩
  · obtain ⟨rfl, rfl, rfl⟩ := culprit_unique ht hc
    cases hx with
    | character h => exact absurd h hk
    | token _ hl hp he => exact ⟨q, _, _, hq, hl, hp, he, by rw [hm]; simp⟩
    | association h1 h2 h3 => exact absurd h2 (hi _ _ _ _ h3 h1)
  · obtain ⟨n, h⟩ := ha b i s a hl
    exact absurd h ((addressFault_not hf).1 n)

/-- C53: which tokens are named is determined. -/
theorem C53_determined {before ks ks' : List Kind} {t : Kind} (h : Enumerated before t ks) (h' : Enumerated before t ks') :
    ks = ks' :=
  enumerated_unique h h'

/-- C53: all tokens that could have followed are named, except `.` and `(` after names, the end of the input and `)` after
semicolons, and all but `)` (the end of the input) if the end of the input (`)`) is met. -/
theorem C53_complete_partial {before ks : List Kind} {t k : Kind} (h : Enumerated before t ks) (hv : Viable (before ++ [k])) :
    k ∈ ks ∨ Unlisted before t k :=
  enumerated_complete h hv

/-- C53: these exceptions are real. -/
theorem C53_fails_unlisted :
    (Enumerated [.id] .id operandNexts ∧ Viable [.id, .dot] ∧ Viable [.id, .lpar]) ∧
    (Enumerated [.id, .semicolon] .eq operandStarts ∧ Viable [.id, .semicolon, .endOfInput]) ∧
    (Enumerated [.lpar, .id] .endOfInput [.rpar] ∧ Viable [.lpar, .id, .and]) ∧
    (Enumerated [.id] .rpar [.endOfInput] ∧ Viable [.id, .and]) := by
  have s : ∀ {n}, n ≤ 8 → Shape n [.id] := fun h => (Shape.name .one).down h
  have c : Shape 4 [.id, .and, .id] := Shape.bin (ks := [.id]) (us := [.id]) Infix.and (s (by decide)) (s (by decide))
  refine ⟨⟨.next (u := []) rfl (by decide) (by decide), ⟨[.id, .endOfInput], _, (Shape.name (.snoc .one)).down
    (by decide), rfl⟩, ⟨[.string, .rpar, .endOfInput], _, Shape.address.down (by decide), rfl⟩⟩,
    ⟨.operand (.semicolon (u := [.id])) (fun _ _ => ⟨by decide, by decide⟩), ⟨[], _, Shape.trailing (s (by decide)), rfl⟩⟩,
    ⟨.unclosed (u := [.lpar]) rfl (by decide) rfl, ⟨[.id, .rpar, .endOfInput], _,
      (Shape.paren (c.down (by decide))).down (by decide), rfl⟩⟩,
    ⟨.unopened (u := []) rfl (by decide) rfl, ⟨[.id, .endOfInput], _, c.down (by decide), rfl⟩⟩⟩

/-- The names of the tokens in messages are different, and those of keywords and operators are their spellings. -/
theorem C53_names : (∀ k k', nameOf k = nameOf k' → k = k') ∧ ∀ p ∈ keywords, nameOf p.1 = p.2 := by
  refine ⟨?_, by decide⟩
  intro k k'
  cases k <;> cases k' <;> first | exact fun _ => rfl | exact fun h => absurd h (by decide)

/-- The conditions of `C53_expected_partial` for `a b`. -/
example : ∃ t after, Culprit (tokenize (Ex.src c!"a b")) ((tokenize (Ex.src c!"a b")).take 1) t after ∧
    t.kind ≠ .unexpectedChar ∧ (∀ op n u o, Infix t.kind op n (n + 1) (n + 1) →
      ((tokenize (Ex.src c!"a b")).take 1).map (·.kind) = u ++ [o] → o ∉ operandEnds) ∧
    ∀ before i s after, Literal (tokenize (Ex.src c!"a b")) before i s after →
      ∃ n, Address Ex.sys.inetPton6 i.text s.text n := by
  refine ⟨((tokenize (Ex.src c!"a b")).drop 1).headD ⟨.id, [], {}, {}⟩, (tokenize (Ex.src c!"a b")).drop 2,
    ⟨by decide +kernel, ?_, ?_⟩, by decide +kernel, ?_, ?_⟩
  · rw [show ((tokenize (Ex.src c!"a b")).take 1).map (·.kind) = [.id] by decide +kernel]
    exact Ex.viable_lt.of_append (a := [.id]) (b := [.lt, .id])
  · rw [show (((tokenize (Ex.src c!"a b")).take 1) ++ [((tokenize (Ex.src c!"a b")).drop 1).headD
      ⟨.id, [], {}, {}⟩]).map (·.kind) = [.id, .id] by decide +kernel]
    exact fail_not_viable (bad := fun _ => False) (f := 5) (a := [.id]) (r := []) (d := .expected extensionKinds) rfl
  · intro op n u o h
    rw [show (((tokenize (Ex.src c!"a b")).drop 1).headD ⟨.id, [], {}, {}⟩).kind = .id by decide +kernel] at h
    cases h
  · rintro before i s after ⟨l, r, e, h1, h2, h3, -⟩
    have hk : (tokenize (Ex.src c!"a b")).all (fun t => t.kind != .string) = true := by decide +kernel
    have := List.all_eq_true.1 hk s (by rw [e]; simp)
    simp [h3] at this

/-- C53 fails: after `a < b`, the message lists `<` and `)` as expected although no constraint continues with them. -/
theorem C53_fails_listed : parseConstraintM Ex.texts Ex.sys .table (Ex.src c!"a < b c") = .err .invalidArgument
      (c!"In @entry_restriction of table 't'; at offset line 1, column 7:\n1 | a < b c\n  |       ^\nParse error: " ++
        c!"unexpected token: <ID>. Expected <END_OF_INPUT>, ), ::, &&, ;, ||, ->, ==, !=, >, >=, <, or <=.") ∧
    ¬ Viable [.id, .lt, .id, .lt] ∧ ¬ Viable [.id, .lt, .id, .rpar] :=
  ⟨by decide +kernel,
    fail_not_viable (bad := fun _ => False) (f := 5) (a := [.id, .lt, .id]) (r := []) (d := .nonAssoc) rfl,
    stop_not_viable (bad := fun _ => False) (f := 5) (a := [.id, .lt, .id]) (r := []) rfl (by decide)⟩

/-- C53 fails: after a name, the message does not list `.` and `(`, which could follow it. -/
theorem C53_fails_missing : parseConstraintM Ex.texts Ex.sys .table (Ex.src c!"a b") = .err .invalidArgument
      (c!"In @entry_restriction of table 't'; at offset line 1, column 3:\n1 | a b\n  |   ^\nParse error: " ++
        c!"unexpected token: <ID>. Expected <END_OF_INPUT>, ), ::, &&, ;, ||, ->, ==, !=, >, >=, <, or <=.") ∧
    Viable [.id, .dot] ∧ Viable [.id, .lpar] :=
  ⟨by decide +kernel,
    ⟨[.id, .endOfInput], _, (Shape.name (.snoc .one)).down (by decide), rfl⟩,
    ⟨[.string, .rpar, .endOfInput], _, Shape.address.down (by decide), rfl⟩⟩

end P4C
