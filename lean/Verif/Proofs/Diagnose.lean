import Verif.Proofs.Blame
import Verif.Proofs.Clean
import Verif.Proofs.AddressMsg
import Verif.Proofs.GrammarMore
import Verif.Proofs.Quotation
import Verif.Proofs.QuoteNode

/-!
# Messages of syntax errors
-/

namespace P4C

open Spec

theorem kindToKeyword_eq (k : Kind) : kindToKeyword k = nameOf k := by cases k <;> decide

theorem expectedRest_eq : ∀ (k : Kind) (ks : List Kind), ∃ init last, k :: ks = init ++ [last] ∧
    expectedRest (k :: ks) = (init.map fun k => c!", " ++ nameOf k).flatten ++ c!", or " ++ nameOf last ++ c!"."
  | k, [] => ⟨[], k, rfl, by rw [expectedRest, kindToKeyword_eq]; rfl⟩
  | k, k' :: ks => by
    obtain ⟨init, last, h1, h2⟩ := expectedRest_eq k' ks
    refine ⟨k :: init, last, by rw [h1]; rfl, ?_⟩
    rw [expectedRest, h2, kindToKeyword_eq]
    · simp
    · simp

theorem intercalate_cons (sep a : Str) : ∀ (l : List Str),
    List.intercalate sep (a :: l) = a ++ (l.map fun x => sep ++ x).flatten
  | [] => by simp [List.intercalate]
  | b :: l => by
    have := intercalate_cons sep b l
    unfold List.intercalate at this ⊢
    rw [List.intersperse, List.flatten_cons, List.flatten_cons, this]
    · simp
    · simp

theorem expectedText_listing : ∀ (ks : List Kind), ks ≠ [] → ∃ list, Listing ks list ∧
    expectedText ks = c!" Expected " ++ list ++ c!"."
  | [], h => absurd rfl h
  | [k], _ => ⟨_, .one, by rw [expectedText, kindToKeyword_eq]⟩
  | k :: k' :: ks, _ => by
    obtain ⟨init, last, h1, h2⟩ := expectedRest_eq k' ks
    refine ⟨_, by rw [h1]; exact Listing.more (ks := k :: init) (k := last) (by simp), ?_⟩
    rw [expectedText, h2, kindToKeyword_eq, List.map_cons, intercalate_cons]
    · simp [List.map_map, Function.comp_def]
    · simp

theorem names_no_end {ks : List Kind} (h : Names ks) : .endOfInput ∉ ks ∧ .unexpectedChar ∉ ks := by
  induction h with
  | one => decide
  | snoc _ ih => simpa using ih

theorem shape_no_end {n : Nat} {ks : List Kind} (h : Shape n ks) : .endOfInput ∉ ks ∧ .unexpectedChar ∉ ks := by
  induction h with
  | numeral hb =>
    rename_i k b
    cases k <;> first | decide | cases hb
  | name h => exact names_no_end h
  | bin hi _ _ ih1 ih2 =>
    have : ∀ {o op n l r}, Infix o op n l r → Kind.endOfInput ≠ o ∧ Kind.unexpectedChar ≠ o := by
      intro o op n l r h; cases h <;> decide
    obtain ⟨h1, h2⟩ := this hi
    simp [ih1, ih2, h1, h2]
  | up _ _ ih => exact ih
  | true_ | false_ | address | attr => decide
  | paren _ ih => simpa using ih
  | field _ ih => simpa using ih
  | not _ ih => simpa using ih
  | neg _ ih => simpa using ih
  | trailing _ ih => simpa using ih

/-- What is followed by another token contains neither the end of input nor a character that is not a token. -/
theorem viable_no_end {a : List Kind} {k : Kind} (h : Viable (a ++ [k])) : .endOfInput ∉ a ∧ .unexpectedChar ∉ a := by
  obtain ⟨rest, b, hb, e⟩ := h
  have hn := shape_no_end hb
  obtain ⟨c, hc⟩ : ∃ c, a ++ c = b := by
    rw [List.append_assoc, List.singleton_append] at e
    have h1 : k :: rest = (k :: rest).dropLast ++ [(k :: rest).getLast (by simp)] := (List.dropLast_concat_getLast _).symm
    rw [h1, ← List.append_assoc] at e
    exact ⟨_, (List.append_inj' e rfl).1⟩
  rw [← hc] at hn
  simp only [List.mem_append, not_or] at hn
  exact ⟨hn.1.1, hn.2.1⟩

theorem reason_viable {w : List Kind} {t : Kind} {ks : List Kind} (h : ReasonOk w t (.expected ks)) :
    ∃ k ∈ ks, Viable (w ++ [k]) := by
  rcases h.1 with ⟨k, rfl, h'⟩ | ⟨h1, _, h2⟩
  · exact ⟨k, by simp, h'⟩
  · exact ⟨_, h1, h2 _ h1 (by unfold Doubtful; decide)⟩

theorem reason_possible {w : List Kind} {t : Kind} {ks : List Kind} (h : ReasonOk w t (.expected ks)) : Possible w ks := by
  refine ⟨reason_viable h, ?_⟩
  rcases h.1 with ⟨k, rfl, h'⟩ | ⟨_, h1, h2⟩
  · intro k' hk _
    rw [List.mem_singleton.1 hk]; exact h'
  · intro k hk hc
    exact h2 k hk (hc.elim (fun h => by omega) id)

theorem reason_complaint {w : List Kind} {t : Token} {d : Reason} (h : ReasonOk w t.kind d) :
    Complaint w t (reasonText t d) := by
  cases d with
  | expected ks =>
    unfold reasonText
    dsimp only
    by_cases hu : t.kind = .unexpectedChar
    · rw [if_pos hu]; exact .character hu
    · rw [if_neg hu]
      have hv := reason_viable h
      obtain ⟨list, h1, h2⟩ := expectedText_listing ks (by rintro rfl; obtain ⟨k, hk, _⟩ := hv; cases hk)
      have := Complaint.token (before := w) (t := t) hu h1 (reason_possible h) h.2
      rw [h2, kindToKeyword_eq]
      refine cast ?_ this
      congr 1
      simp
  | nonAssoc =>
    obtain ⟨op, n, u, v, hi, hw, hv, u', o, e, ho⟩ := h
    have := Complaint.association (t := t) e ho hi hw hv
    refine cast ?_ this
    congr 1
    unfold reasonText nonAssociativeText
    dsimp only
    rw [kindToKeyword_eq]
    simp

theorem kinds_append (a b : List Token) : kinds (a ++ b) = kinds a ++ kinds b := List.map_append

theorem prefix_of_length {α : Type} {a b c d : List α} (h : a ++ b = c ++ d) (hl : a.length ≤ c.length) : ∃ e, c = a ++ e := by
  rcases List.append_eq_append_iff.1 h with ⟨e, he, _⟩ | ⟨e, he, _⟩
  · exact ⟨e, he⟩
  · have := congrArg List.length he
    simp at this
    have h0 : e = [] := List.eq_nil_of_length_eq_zero (by omega)
    exact ⟨[], by rw [he, h0]; simp⟩

/-- Literals end before the culprit. -/
theorem literal_before {ts before after b a : List Token} {t i s : Token} (hc : Culprit ts before t after)
    (hl : Literal ts b i s a) : b.length + 4 ≤ before.length := by
  obtain ⟨l, r, e, -, -, -, -, hv⟩ := hl
  apply Decidable.byContradiction
  intro hlt
  have e1 : (before ++ [t]) ++ after = (b ++ [i, l, s, r]) ++ a := by rw [← e, hc.1]; simp
  obtain ⟨c, h⟩ := prefix_of_length e1 (by simp; omega)
  rw [h, List.map_append] at hv
  exact hc.2.2 hv.of_append

theorem clean_literal {x : Texts} {sys : Sys} {ts before rest b a : List Token} {i s : Token} {m : Nat}
    (hts : ts = before ++ rest) (hc : Clean (BadAddress x sys ts) m (kinds before) (kinds rest))
    (hl : Literal ts b i s a) (hlen : b.length + 3 + m ≤ before.length) : ∃ v, Address sys.inetPton6 i.text s.text v := by
  obtain ⟨l, r, e, k1, k2, k3, k4, _⟩ := hl
  have e1 : (b ++ [i, l, s]) ++ (r :: a) = before ++ rest := by rw [← hts, e]; simp
  obtain ⟨c, hcc⟩ := prefix_of_length e1 (by simp; omega)
  have hcl : c.length = before.length - (b.length + 3) := by rw [hcc]; simp; omega
  have hlen' : ts.length = b.length + 4 + a.length := by rw [e]; simp; omega
  have hlen2 : ts.length = before.length + rest.length := by rw [hts]; simp
  have hbad := hc (kinds (b ++ [i, l])) (kinds c) (by rw [hcc]; simp [kinds, k3]) (by simp [kinds]; omega)
  have : (kinds c).length + (kinds rest).length - 1 = a.length := by simp [kinds]; omega
  rw [this] at hbad
  cases hm : makeNetworkAddressM x sys i.text s.text i.start r.stop with
  | ok ex =>
    have := address_iff.1 (by rw [← erase_makeNetworkAddress x, hm]; rfl)
    exact ⟨this.choose, this.choose_spec.1⟩
  | _ => exact absurd ⟨b, i, l, s, r, a, e, rfl, k1, k2, k3, k4, fun ex h => by rw [hm] at h; cases h⟩ hbad

/-- The outcomes of `parseTokensM`. -/
theorem diagnose_tokens (x : Texts) (sys : Sys) (k : ConstraintKind) (src : ConstraintSource) {ts : List Token}
    (hn : NumTok ts) (hlast : ∃ toks last, ts = toks ++ [last] ∧ (last.kind = .endOfInput ∨ last.kind = .unexpectedChar)) :
    (∃ e, parseTokensM x sys k ts src = .ok e ∧ AddressesOk sys.inetPton6 ts ts.length) ∨ parseTokensM x sys k ts src = .oof ∨
    (∃ m, parseTokensM x sys k ts src = .err .invalidArgument m ∧
      ∃ before i s after, Literal ts before i s after ∧ AddressFault sys.inetPton6 i.text s.text m ∧
        AddressesOk sys.inetPton6 ts before.length) ∨
    ∃ before t after d, Culprit ts before t after ∧ AddressesOk sys.inetPton6 ts before.length ∧ ReasonOk (kinds before) t.kind d ∧
      parseTokensM x sys k ts src = parseErrorM x (reasonText t d) t src := by
  have hne : ∀ {before : List Token} {k' : Kind}, Viable (kinds before ++ [k']) → before ≠ ts := by
    rintro before k' hv rfl
    obtain ⟨toks, last, e, hl⟩ := hlast
    have := viable_no_end hv
    rw [e, kinds_append] at this
    rcases hl with hl | hl <;> simp [kinds, hl] at this
  unfold parseTokensM
  generalize 2 * ts.length + 2 = f
  have sim := (sim_parse (x := x) (sys := sys) (k := k) (src := src) (eof := eofLoc ts) hn f).1 0 ⟨ts, eofLoc ts⟩
    (SubStream.refl _)
  have claim := (r_claim (BadAddress x sys ts) f).1 0 [] (kinds ts) (by decide) hole_top ⟨.start, fun u e => by simp at e⟩
  change Sim x src (AddressError x sys ts) ⟨ts, eofLoc ts⟩ _ (rAbove (BadAddress x sys ts) f 0 (kinds ts)) at sim
  generalize hm : parseAboveM x sys k src f 0 ⟨ts, eofLoc ts⟩ = m at sim ⊢
  have clean := (r_clean (BadAddress x sys ts) f).1 0 (kinds ts)
  generalize ho : rAbove (BadAddress x sys ts) f 0 (kinds ts) = o at sim claim clean
  have finish : ∀ (s : Stream) (d : Reason) (before : List Token), ts = before ++ s.rest → s.rest ≠ [] →
      Viable (kinds before) → ReasonOk (kinds before) s.peek.kind d →
      ¬ Viable (kinds before ++ [s.peek.kind]) → Clean (BadAddress x sys ts) 1 (kinds before) (kinds s.rest) →
      ∃ before t after d', Culprit ts before t after ∧ AddressesOk sys.inetPton6 ts before.length ∧ ReasonOk (kinds before) t.kind d' ∧
        (parseErrorM x (reasonText s.peek d) s.peek src : MRes Expr) = parseErrorM x (reasonText t d') t src := by
    intro s d before hb hr hv hd hnv hcl
    obtain ⟨rest, eof⟩ := s
    cases rest with
    | nil => exact absurd rfl hr
    | cons t after =>
      have hcul : Culprit ts before t after := ⟨hb, hv, by rw [List.map_append]; exact hnv⟩
      refine ⟨before, t, after, d, hcul, fun b i v a hl _ => ?_, hd, rfl⟩
      exact clean_literal hb hcl hl (by have := literal_before hcul hl; omega)
  cases sim with
  | ok e s hs =>
    obtain ⟨_, before, hb⟩ := hs
    change ts = before ++ s.rest at hb
    obtain ⟨a, h1, q, hq, hf, hst⟩ := claim
    rw [hb, kinds_append] at h1
    have := List.append_cancel_right h1
    subst this
    rw [mres_ok_bind]
    dsimp only
    by_cases hk : s.peek.kind = .endOfInput
    · refine .inl ⟨e, ?_, ?_⟩
      · unfold expectTokenKindM
        dsimp only
        rw [if_neg (by simpa using hk)]
        rfl
      · intro b i v a hl _
        obtain ⟨a', h1, hcl⟩ := clean
        rw [hb, kinds_append] at h1
        have := List.append_cancel_right h1
        subst this
        refine clean_literal hb hcl hl ?_
        apply Decidable.byContradiction
        intro hlt
        obtain ⟨l, r, e1, k1, k2, k3, k4, hv⟩ := hl
        obtain ⟨rest, eof⟩ := s
        cases rest with
        | nil =>
          rw [hb] at e1
          have := congrArg List.length e1
          simp at this
          omega
        | cons t rest =>
          have e2 : (before ++ [t]) ++ rest = (b ++ [i, l, v, r]) ++ a := by rw [← e1, hb]; simp
          obtain ⟨c, hc⟩ := prefix_of_length e2 (by simp; omega)
          rw [show b ++ [i, l, v, r] = (b ++ [i, l, v]) ++ [r] by simp, List.map_append] at hv
          have hno := viable_no_end hv
          have ht : t ∈ b ++ [i, l, v, r] := by rw [hc]; simp
          rw [show b ++ [i, l, v, r] = (b ++ [i, l, v]) ++ [r] by simp, List.mem_append] at ht
          have htk : t.kind = .endOfInput := hk
          rcases ht with ht | ht
          · exact hno.1 (by rw [← htk]; exact List.mem_map_of_mem ht)
          · simp at ht
            rw [ht, k4] at htk
            cases htk
    · refine .inr (.inr (.inr ?_))
      have hE : (expectTokenKindM x .endOfInput src s >>= fun _ => MRes.ok e) =
          parseErrorM x (reasonText s.peek (.expected [.endOfInput])) s.peek src := by
        unfold expectTokenKindM
        dsimp only
        rw [if_pos hk, unexpectedM_eq, parseErrorM_bind]
      rw [hE]
      have hvE : Viable (kinds before ++ [Kind.endOfInput]) :=
        ⟨[], _, hq.down (Nat.zero_le _), by rw [List.append_nil]⟩
      have hr : s.rest ≠ [] := by
        intro h
        exact hk (by unfold Stream.peek; rw [h])
      refine finish s _ before hb hr hvE.of_append ⟨.inl ⟨_, rfl, hvE⟩, ?_⟩ ?_ ?_
      · obtain ⟨u, o, e, h'⟩ := shape_last hq
        rw [hd_kinds] at hst
        refine .unopened e (h'.imp id fun h => h.2) (hst.elim (fun h => absurd h hk) fun hst => hst.elim id fun hst => ?_)
        have := tokenPrecedence_pos hst.1
        omega
      · have e1 := peek_of_ne_end hk
        rw [hb, kinds_append, e1] at ho
        exact stop_not_viable ho hk
      · obtain ⟨a, h1, hcl⟩ := clean
        rw [hb, kinds_append] at h1
        rw [List.append_cancel_right h1]
        exact fun u v e h => hcl u v e (Nat.zero_le _)
  | fail d s hs =>
    obtain ⟨_, before, hb⟩ := hs
    change ts = before ++ s.rest at hb
    obtain ⟨a, h1, hv, hd⟩ := claim
    rw [hb, kinds_append] at h1
    have := List.append_cancel_right h1
    subst this
    refine .inr (.inr (.inr ?_))
    rw [parseErrorM_bind]
    rw [List.nil_append] at hv hd
    rw [hd_kinds] at hd
    have hr : s.rest ≠ [] := by
      intro h
      cases d with
      | expected ks =>
        obtain ⟨k', _, hv'⟩ := reason_viable hd
        exact hne hv' (by rw [hb, h, List.append_nil])
      | nonAssoc =>
        obtain ⟨op, n, u, v, hi, _⟩ := hd
        have : s.peek.kind = .endOfInput := by unfold Stream.peek; rw [h]
        rw [this] at hi
        cases hi
    refine finish s d before hb hr hv hd ?_ ?_
    · obtain ⟨rest, eof⟩ := s
      cases rest with
      | nil => exact absurd rfl hr
      | cons t after =>
        change ts = before ++ t :: after at hb
        rw [hb, kinds_append] at ho
        exact fail_not_viable ho
    · obtain ⟨a, h1, hcl⟩ := clean
      rw [hb, kinds_append] at h1
      rw [List.append_cancel_right h1]
      exact hcl
  | addr m s hs hbad =>
    refine .inr (.inr (.inl ⟨m, rfl, ?_⟩))
    obtain ⟨_, before, hb⟩ := hs
    change ts = before ++ s.rest at hb
    obtain ⟨a, h1, hv⟩ := claim
    rw [hb, kinds_append] at h1
    have := List.append_cancel_right h1
    subst this
    obtain ⟨pre, i, l, v, r, b, e1, e2, k1, k2, k3, k4, hx⟩ := hbad
    have e3 : before = pre ++ [i, l, v, r] := by
      rw [hb] at e1
      exact (List.append_inj' e1 e2.symm).1
    refine ⟨pre, i, v, b, ⟨l, r, e1, k1, k2, k3, k4, by rw [← e3]; exact hv⟩, (addressM_err.1 hx).2, ?_⟩
    intro b' i' v' a' hl hlt
    obtain ⟨a, h1, hcl⟩ := clean
    rw [hb, kinds_append] at h1
    have := List.append_cancel_right h1
    subst this
    exact clean_literal hb hcl hl (by rw [e3]; simp; omega)
  | oof => exact .inr (.inl rfl)

theorem tokenize_last (src : ConstraintSource) : ∃ toks last, tokenize src = toks ++ [last] ∧
    (last.kind = .endOfInput ∨ last.kind = .unexpectedChar) := by
  obtain ⟨toks, last, h1, _, h2⟩ := tokenize_split src
  exact ⟨toks, last, h1, h2⟩

/-- The message of a syntax error. -/
theorem diagnose {x : Texts} {sys : Sys} {k : ConstraintKind} {src : ConstraintSource} (hcr : CrLf src.str)
    (hset : src.loc.src ≠ .notSet) (hline : 0 ≤ src.loc.line) (hcol : 0 ≤ src.loc.col) {c : Code} {m : Str}
    (h : parseConstraintM x sys k src = .err c m) :
    c = .invalidArgument ∧ ((∃ before i s after, Literal (tokenize src) before i s after ∧
        AddressFault sys.inetPton6 i.text s.text m ∧ AddressesOk sys.inetPton6 (tokenize src) before.length) ∨
      ∃ before t after d q, Culprit (tokenize src) before t after ∧ AddressesOk sys.inetPton6 (tokenize src) before.length ∧
        ReasonOk (kinds before) t.kind d ∧
        Quotation src t.start t.stop q ∧ m = q ++ c!"Parse error: " ++ reasonText t d) := by
  have hc : c = .invalidArgument := by
    have he := erase_parseConstraint x sys k src
    rw [h] at he
    rcases parse_total (sys := sys) (k := k) hcr hset hcol with ⟨e, h'⟩ | h'
    · rw [h'] at he; cases he
    · rw [h'] at he; cases he; rfl
  subst hc
  refine ⟨rfl, ?_⟩
  rcases diagnose_tokens x sys k src (tokenize_numTok src) (tokenize_last src) with ⟨e, h', _⟩ | h' | ⟨_, h', hlit⟩ |
    ⟨before, t, after, d, hcul, hok, hd, h'⟩
  · unfold parseConstraintM at h; rw [h'] at h; cases h
  · unfold parseConstraintM at h; rw [h'] at h; cases h
  · unfold parseConstraintM at h; rw [h'] at h; cases h; exact .inl hlit
  · right
    unfold parseConstraintM at h
    rw [h'] at h
    unfold parseErrorM quotingErrorM at h
    have ht : t ∈ tokenize src := by rw [hcul.1]; simp
    obtain ⟨p1, p2, p3, p4, p5, p6, _⟩ := lexed_placed (tokenize_lexed src) hcr t ht
    have c4 := p4 hcol
    cases hq : quoteSub src t.start t.stop with
    | ok q =>
      rw [hq] at h
      cases h
      exact ⟨before, t, after, d, q, hcul, hok, hd,
        (quoteSub_iff p6 (by omega) c4 (by omega)).1 hq, rfl⟩
    | err => rw [hq] at h; cases h
    | crash => rw [hq] at h; cases h
    | oof => rw [hq] at h; cases h

/-- There is at most one culprit. -/
theorem culprit_unique {ts b b' a a' : List Token} {t t' : Token} (h : Culprit ts b t a) (h' : Culprit ts b' t' a') :
    b = b' ∧ t = t' ∧ a = a' := by
  have key : ∀ {b b' a a' : List Token} {t t' : Token}, Culprit ts b t a → Culprit ts b' t' a' → ¬ b.length < b'.length := by
    intro b b' a a' t t' h h' hlt
    have e := h.1.symm.trans h'.1
    rw [show b ++ t :: a = (b ++ [t]) ++ a by simp] at e
    obtain ⟨c, hc⟩ : ∃ c, b' = (b ++ [t]) ++ c := by
      rcases List.append_eq_append_iff.1 e with ⟨c, hc, _⟩ | ⟨c, hc, _⟩
      · exact ⟨c, hc⟩
      · have := congrArg List.length hc
        simp at this
        have hc0 : c = [] := List.eq_nil_of_length_eq_zero (by omega)
        exact ⟨[], by rw [hc, hc0]; simp⟩
    refine h.2.2 ?_
    have hv := h'.2.1
    rw [hc, List.map_append] at hv
    exact hv.of_append
  have hlen : b.length = b'.length := by
    have h1 := key h h'
    have h2 := key h' h
    omega
  have e := h.1.symm.trans h'.1
  obtain ⟨e1, e2⟩ := List.append_inj e hlen
  cases e2
  exact ⟨e1, rfl, rfl⟩

/-- A text with a culprit is not accepted. -/
theorem culprit_rejected {sys : Sys} {k : ConstraintKind} {src : ConstraintSource} {before after : List Token} {t : Token}
    (h : Culprit (tokenize src) before t after) (e : Expr) : parseConstraint sys k src ≠ .ok e := by
  intro he
  obtain ⟨a, b, h1, h2, h3⟩ := (parseTokens_iff (tokenize_numTok src)).1 he
  have hs := G_shape h2
  refine h.2.2 ?_
  have hl : kinds b = [.endOfInput] := by
    obtain ⟨toks, last, e1, e2, e3⟩ := tokenize_split src
    rcases h3 with rfl | ⟨t', b', rfl, hk⟩
    · exfalso
      rw [e1, List.append_nil] at h1
      rw [← h1] at hs
      have := shape_no_end hs
      rw [kinds_append] at this
      rcases e3 with e3 | e3 <;> simp [kinds, e3] at this
    · rw [e1] at h1
      have hb' : b' = [] := by
        cases hb : b'.reverse with
        | nil => simpa using hb
        | cons z zs =>
          exfalso
          have hz : b' = zs.reverse ++ [z] := by rw [← List.reverse_reverse b', hb]; simp
          rw [hz, show a ++ t' :: (zs.reverse ++ [z]) = (a ++ t' :: zs.reverse) ++ [z] by simp] at h1
          have := (List.append_inj' h1 rfl).1
          exact e2 t' (by rw [this]; simp) hk
      rw [hb']
      simp [kinds, hk]
  have : Viable (kinds (tokenize src)) := ⟨[], kinds a, hs, by rw [h1, kinds_append, hl, List.append_nil]⟩
  rw [h.1, show before ++ t :: after = (before ++ [t]) ++ after by simp, kinds_append] at this
  exact this.of_append

/-- All address literals of an accepted text are addresses. -/
theorem accepted_addresses {sys : Sys} {k : ConstraintKind} {src : ConstraintSource} {e : Expr}
    (h : parseConstraint sys k src = .ok e) : AddressesOk sys.inetPton6 (tokenize src) (tokenize src).length := by
  let x : Texts := ⟨fun _ _ _ => [], [], fun _ => [], fun _ => [], fun _ => [], fun _ => [], fun _ => [], fun _ => [], fun _ => []⟩
  have he := erase_parseConstraint x sys k src
  rw [h] at he
  have he := erased_ok he
  rcases diagnose_tokens x sys k src (tokenize_numTok src) (tokenize_last src) with ⟨_, _, h'⟩ | h' | ⟨_, h', _⟩ |
    ⟨before, t, after, d, hcul, _, _, _⟩
  · exact h'
  · unfold parseConstraintM at he; rw [h'] at he; cases he
  · unfold parseConstraintM at he; rw [h'] at he; cases he
  · exact absurd h (culprit_rejected hcul e)

theorem literal_unique {ts b b' a a' : List Token} {i s i' s' : Token} (h : Literal ts b i s a) (h' : Literal ts b' i' s' a')
    (hl : b.length = b'.length) : b = b' ∧ i = i' ∧ s = s' ∧ a = a' := by
  obtain ⟨l, r, e, -⟩ := h
  obtain ⟨l', r', e', -⟩ := h'
  have e2 := e.symm.trans e'
  obtain ⟨e3, e4⟩ := List.append_inj e2 (by simp [hl])
  obtain ⟨e5, e6⟩ := List.append_inj e3 hl
  cases e6
  exact ⟨e5, rfl, rfl, e4⟩

end P4C
