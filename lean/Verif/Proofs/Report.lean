import Verif.Spec.Report
import Verif.Proofs.Program
import Verif.Props.TypeErrors
import Verif.Proofs.DiagnoseAny
import Verif.Props.Program

/-!
# Messages about P4 programs
-/

namespace P4C

open Spec

theorem mbind_err {α β : Type} {r : MRes α} {f : α → MRes β} {c : Code} {m : Str} :
    (r >>= f) = .err c m ↔ r = .err c m ∨ ∃ a, r = .ok a ∧ f a = .err c m := by
  cases r <;> simp [bind, MRes.bind]

theorem mbind_ok {α β : Type} {r : MRes α} {f : α → MRes β} {b : β} :
    (r >>= f) = .ok b ↔ ∃ a, r = .ok a ∧ f a = .ok b := by
  cases r <;> simp [bind, MRes.bind]

/-! ### Annotations -/

theorem restriction_word (k : ConstraintKind) (s : Str) :
    c!"@" ++ (restrictionWord k ++ (c!"_restriction" ++ s)) = restriction k ++ s := by
  cases k <;> rfl

theorem kind_word (k : ConstraintKind) (s : Str) : kindWord k ++ s = kindName k ++ (c!" " ++ s) := by
  cases k <;> rfl

theorem content_body {k : ConstraintKind} {p : Preamble} {body : Str} (h : Content k p body) :
    ∃ st, annLoop k {} p.annotations = (st, body) := by
  obtain ⟨pre, rest, post, ha, hpre, hb, hr⟩ := h
  refine ⟨pre.foldl annStep {}, ?_⟩
  rw [ha, annLoop_pre hpre, annLoop_hit, cstr_split hb hr]

theorem content_of {k : ConstraintKind} {p : Preamble} {body : Str} {st : AnnState}
    (h : annLoop k {} p.annotations = (st, body)) (hne : body ≠ []) : Content k p body := by
  rcases first_restriction k p.annotations with hn | ⟨pre, b, post, ha, hpre⟩
  · exfalso
    have := annLoop_pre (st := {}) (as := []) hn
    rw [List.append_nil, h] at this
    exact hne (congrArg Prod.snd this)
  · rw [ha, annLoop_pre hpre, annLoop_hit] at h
    obtain ⟨rest, he, h0, hr⟩ := cstr_parts b
    have hb := congrArg Prod.snd h
    dsimp only at hb
    rw [hb] at he h0
    exact ⟨pre, rest, post, by rw [ha, ← he], hpre, h0, hr⟩

theorem enclosed_iff {b s : Str} :
    (consumePrefix c!"(\"" b).bind (consumeSuffix c!"\")") = some s ↔ b = c!"(\"" ++ s ++ c!"\")" := by
  constructor
  · intro h
    cases h2 : consumePrefix c!"(\"" b with
    | none => rw [h2] at h; cases h
    | some t =>
      rw [h2, Option.bind_some] at h
      rw [consumePrefix_iff.1 h2, consumeSuffix_iff.1 h, List.append_assoc]
  · rintro rfl
    rw [(consumePrefix_iff (t := s ++ c!"\")")).2 (by rw [List.append_assoc]), Option.bind_some, consumeSuffix_iff.2 rfl]

theorem quotes_iff {s : Str} : '"' ∈ replaceQuotes s ↔ ∀ parts, ¬ Quoted (c!"(\"" ++ s ++ c!"\")") parts := by
  constructor
  · rintro h parts ⟨hne, hnq, hb⟩
    have e : s = join c!"\" \"" parts := by
      have := enclosed_iff.2 hb
      rw [enclosed_iff.2 rfl] at this
      exact Option.some.inj this
    rw [e, replaceQuotes_join hnq] at h
    exact join_noQuote hnq h
  · intro h
    apply Classical.byContradiction
    intro hn
    obtain ⟨parts, hne, hnq, rfl⟩ := replaceQuotes_parts s hn
    exact h parts ⟨hne, hnq, rfl⟩

theorem unexpected_text (k : ConstraintKind) : c!"@" ++ (restrictionWord k ++ unexpectedQuotesText) = restriction k ++
    (c!" was parsed with unexpected quotation marks (\"). Ensure you aren't using any quotation marks in a comment. " ++
        c!"Otherwise, this suggests a parser assumption was violated, likely due to a p4c frontend change, or " ++
        c!"`@p4runtime_translation` support being added.") := by
  cases k <;> rfl

theorem extractM_err {k : ConstraintKind} {p : Preamble} {c : Code} {m : Str} :
    extractConstraintM k p = .err c m ↔ c = .invalidArgument ∧ AnnotationFault k p m := by
  have e1 : c!"In " ++ kindWord k ++ p.name ++ c!":\nSyntax error: @" ++ restrictionWord k ++
      c!"_restriction must be enclosed in '(\"' and '\")'" = c!"In " ++ kindName k ++ c!" " ++ p.name ++
      c!":\nSyntax error: " ++ restriction k ++ c!" must be enclosed in '(\"' and '\")'" := by
    have := restriction_word k c!" must be enclosed in '(\"' and '\")'"
    simp only [List.append_assoc, kind_word]
    rw [← this]
    rfl
  have e2 : c!"In " ++ kindWord k ++ p.name ++ c!":\nSyntax error: @" ++ restrictionWord k ++
      unexpectedQuotesText = c!"In " ++ kindName k ++ c!" " ++ p.name ++ c!":\nSyntax error: " ++ restriction k ++
      (c!" was parsed with unexpected quotation marks (\"). Ensure you aren't using any quotation marks in a comment. " ++
        c!"Otherwise, this suggests a parser assumption was violated, likely due to a p4c frontend change, or " ++
        c!"`@p4runtime_translation` support being added.") := by
    have := unexpected_text k
    rw [List.append_assoc _ (restriction k), ← this]
    simp only [List.append_assoc, kind_word]
    rfl
  constructor
  · intro h
    unfold extractConstraintM at h
    generalize ha : annLoop k {} p.annotations = r at h
    obtain ⟨st, body⟩ := r
    dsimp only at h
    by_cases hb : body = []
    · rw [if_pos hb] at h; cases h
    · rw [if_neg hb] at h
      have hc := content_of ha hb
      cases hs : (consumePrefix c!"(\"" body).bind (consumeSuffix c!"\")") with
      | none =>
        rw [hs] at h
        dsimp only at h
        rw [e1] at h
        injection h with h1 h2
        refine ⟨h1.symm, ?_⟩
        rw [← h2]
        exact .notEnclosed hc hb fun s e => by rw [enclosed_iff.2 e] at hs; cases hs
      | some s =>
        rw [hs] at h
        dsimp only at h
        rw [enclosed_iff.1 hs] at hc
        by_cases hq : '"' ∈ replaceQuotes s
        · rw [if_pos hq, e2] at h
          injection h with h1 h2
          refine ⟨h1.symm, ?_⟩
          rw [← h2]
          exact .quotes hc (quotes_iff.1 hq)
        · rw [if_neg hq] at h; cases h
  · rintro ⟨rfl, h⟩
    unfold extractConstraintM
    cases h with
    | notEnclosed hc hb hs =>
      obtain ⟨st, ha⟩ := content_body hc
      rw [ha]
      dsimp only
      rw [if_neg hb]
      cases hs' : (consumePrefix c!"(\"" _).bind (consumeSuffix c!"\")") with
      | none => dsimp only; rw [e1]
      | some s => exact absurd (enclosed_iff.1 hs') (hs s)
    | quotes hc hq =>
      obtain ⟨st, ha⟩ := content_body hc
      rw [ha]
      dsimp only
      rw [if_neg (by simp), enclosed_iff.2 rfl]
      dsimp only
      rw [if_pos (quotes_iff.2 hq), e2]

theorem attachedM {k : ConstraintKind} {p : Preamble} {o : Option ConstraintSource} :
    extractConstraintM k p = .ok o ↔ Attached k p o := by
  rw [← attached_iff, ← erase_extractConstraint]
  constructor
  · intro h; rw [h]; rfl
  · exact erased_ok

theorem attached_named {k : ConstraintKind} {p : Preamble} {src : ConstraintSource} (h : Attached k p (some src)) :
    src.loc.src ≠ .notSet ∧ 0 ≤ src.loc.line ∧ 0 ≤ src.loc.col := by
  cases h with
  | @text pre post body rest f parts n _ _ _ _ _ _ =>
    refine ⟨?_, by simp [location], by simp [location]⟩
    unfold location
    dsimp only
    split
    · nofun
    · cases k <;> nofun

/-! ### Constraints -/

theorem parseAndCheckM_err {x : Texts} {sys : Sys} {k : ConstraintKind} {p : Preamble} {sc : Scope} {Γ : Sig}
    (hΓ : sigOf sc = Γ) (hk : sc.isAction = decide (k = .action))
    {c : Code} {m : Str}
    (h : parseAndCheckM x sys k p sc = .err c m) : ConstraintFault x sys.inetPton6 k Γ p m := by
  subst hΓ
  unfold parseAndCheckM at h
  rcases mbind_err.1 h with h | ⟨o, ho, h⟩
  · exact .annotation (extractM_err.1 h).2
  · cases o with
    | none => cases h
    | some src =>
      have ha := attachedM.1 ho
      obtain ⟨hset, hline, hcol⟩ := attached_named ha
      have hl : Lexed src.loc src.str (tokenize src) := (C19_lexical_structure src _).1 rfl
      rcases mbind_err.1 h with h | ⟨e, he, h⟩
      · obtain ⟨b, t, a, comp, h1, h2, h3, h4⟩ | ⟨_, b, i, s, a, h1, h2, h3⟩ := syntax_any hline hcol h
        · exact .syntax ha hl h1 h2 h3 h4
        · exact .address ha hl h1 h2 h3
      · rcases mbind_err.1 h with h | ⟨e', he', h⟩
        · have hp : parseConstraint sys k src = .ok e := by rw [← erase_parseConstraint x, he]; rfl
          rcases type_any (x := x) (sc := sc) hp hline hcol with ⟨⟨e', h'⟩, _⟩ | ⟨y, a, b, text, h1, h2, ⟨⟨c', m', h', h3⟩, _⟩ | ⟨h', _⟩⟩
          · rw [h'] at h; cases h
          · rw [h'] at h
            cases h
            rw [hk] at h2
            exact .type ha hl ((C23_grammar_text ..).1 hp) h1 h2 ((h3 _ _).2 ⟨rfl, rfl⟩)
          · rw [h'] at h; cases h
        · cases h

theorem constraintFault_not {x : Texts} {pton : Str → Option Bytes} {k : ConstraintKind} {Γ : Sig} {p : Preamble} {m : Str}
    (hΓ : ∃ sc, sigOf sc = Γ ∧ sc.isAction = decide (k = .action)) (h : ConstraintFault x pton k Γ p m) :
    ∀ r, ¬ ReadConstraint pton k Γ p r := by
  obtain ⟨sc, hΓ, hk⟩ := hΓ
  have attached : ∀ {src ts}, Attached k p (some src) → Lexed src.loc src.str ts → ∀ r, ReadConstraint pton k Γ p r →
      ∃ e s t, Constraint pton k ts e ∧ abs e = some s ∧ HasTy Γ s t ∧
        parseConstraint ⟨pton⟩ k src = .ok e ∧ tokenize src = ts := by
    intro src ts ha hl r hr
    cases hr with
    | none h => cases attached_unique ha h
    | @some src' ts' e s t h1 h2 h3 h4 h5 =>
      cases attached_unique ha h1
      have e1 := (C19_lexical_structure src _).2 hl
      have e2 := (C19_lexical_structure src _).2 h2
      subst e1
      rw [← e2] at h3
      exact ⟨e, s, t, h3, h4, h5, (C23_grammar_text ⟨pton⟩ ..).2 h3, rfl⟩
  intro r hr
  cases h with
  | annotation h =>
    have h1 := extractM_err.2 ⟨rfl, h⟩
    cases hr with
    | none h => rw [attachedM.2 h] at h1; cases h1
    | some h => rw [attachedM.2 h] at h1; cases h1
  | address ha hl h1 h2 h3 =>
    obtain ⟨e, s, t, _, _, _, hp, rfl⟩ := attached ha hl r hr
    exact (C52_rejected hp).2 _ _ _ _ _ h1 h3
  | «syntax» ha hl h1 h2 h3 h4 =>
    obtain ⟨e, s, t, _, _, _, hp, rfl⟩ := attached ha hl r hr
    exact (C52_rejected hp).1 _ _ _ h1
  | @type src ts e y a b text m c ha hl hc hf hflt hq =>
    obtain ⟨e', s, t, _, h4, h5, hp, rfl⟩ := attached ha hl r hr
    have : e = e' := by
      have := (C23_grammar_text ⟨pton⟩ ..).2 hc
      rw [hp] at this
      injection this with this
      exact this.symm
    subst this
    rw [← hk] at hflt
    subst hΓ
    exact (C54_unique (y' := y) (a' := a) (b' := b) (m' := text) hf hflt).2 t ⟨s, h4, h5⟩

/-! ### Keys and parameters -/

theorem insertVars_append {vs us : List VarInfo} : ∀ {m : VarMaps},
    insertVars m (vs ++ us) = (insertVars m vs >>= fun m => insertVars m us) := by
  induction vs with
  | nil => intro m; rfl
  | cons v vs ih =>
    intro m
    simp only [List.cons_append, insertVars]
    cases insertVar v m <;> simp [bind, Res.bind, ih]

theorem insertVarM_iff {vs : List VarInfo} {v : VarInfo} {m : VarMaps} {dup : Str}
    (hm : insertVars ([], []) vs = .ok m) :
    (∀ m', insertVarM dup v m = .ok m' ↔ insertVars ([], []) (vs ++ [v]) = .ok m') ∧
    (∀ c t, insertVarM dup v m = .err c t ↔ c = .invalidArgument ∧ t = dup ∧ ¬ Distinct (vs ++ [v])) := by
  have e : insertVars ([], []) (vs ++ [v]) = insertVar v m := by
    rw [insertVars_append, hm]
    simp only [bind, Res.bind, insertVars]
    cases insertVar v m <;> rfl
  have hd : Distinct (vs ++ [v]) ↔ ∃ m', insertVar v m = .ok m' := by
    rw [← e]
    constructor
    · intro h; exact ⟨_, insertVars_nil.2 ⟨h, rfl⟩⟩
    · rintro ⟨m', h⟩; exact (insertVars_nil.1 h).1
  rw [e, hd]
  unfold insertVarM insertVar
  constructor
  · intro m'
    cases insertNew v.id v m.1 with
    | none => exact ⟨nofun, nofun⟩
    | some a =>
      dsimp only
      cases insertNew v.name v m.2 <;> simp
  · intro c t
    cases insertNew v.id v m.1 with
    | none => simp; grind
    | some a =>
      dsimp only
      cases insertNew v.name v m.2 with
      | none => simp; grind
      | some b => simp

theorem each_snoc {α β : Type} {R : α → β → Prop} {as : List α} {bs : List β} (h : Each R as bs) {a : α} {b : β}
    (hr : R a b) : Each R (as ++ [a]) (bs ++ [b]) := by
  induction h with
  | nil => exact .cons hr .nil
  | cons h _ ih => exact .cons h ih

theorem each_split {α β : Type} {R : α → β → Prop} {as as' : List α} : ∀ {bs : List β}, Each R (as ++ as') bs →
    ∃ b b', bs = b ++ b' ∧ Each R as b ∧ Each R as' b' := by
  induction as with
  | nil => intro bs h; exact ⟨[], bs, rfl, .nil, h⟩
  | cons a as ih =>
    intro bs h
    cases h with
    | cons h1 h2 =>
      obtain ⟨b, b', rfl, h3, h4⟩ := ih h2
      exact ⟨_ :: b, b', rfl, .cons h1 h3, h4⟩

theorem distinct_prefix {a b : List VarInfo} (h : Distinct (a ++ b)) : Distinct a := by
  obtain ⟨h1, h2⟩ := h
  rw [List.map_append, List.nodup_append] at h1 h2
  exact ⟨h1.1, h2.1⟩

theorem parseKeysM_err {x : Texts} {name : Str} {c : Code} {t : Str} : ∀ {fs a : List MatchField} {vs : List VarInfo}
    {m : VarMaps}, Each KeyDecl a vs → insertVars ([], []) vs = .ok m → parseKeysM x name m fs = .err c t →
    KeysFault x name (a ++ fs) t := by
  intro fs
  induction fs with
  | nil => intro a vs m _ _ h; cases h
  | cons f fs ih =>
    intro a vs m ha hm h
    have hd := (insertVars_nil.1 hm).1
    rw [parseKeysM] at h
    rcases mbind_err.1 h with h | ⟨ty, hty, h⟩
    · unfold parseKeyTypeM at h
      split at h <;> try cases h
      · exact .invalid ha hd (by assumption)
      · exact .unset ha hd (by assumption)
    · have hk : KeyDecl f ⟨f.id, f.name, ty⟩ := by
        rw [← keyDecl_iff, ← erase_parseKeyType x, hty]
        rfl
      rcases mbind_err.1 h with h | ⟨m', hm', h⟩
      · obtain ⟨_, rfl, hn⟩ := ((insertVarM_iff hm).2 _ _).1 h
        exact .duplicate ha hd hk hn
      · have := ih (each_snoc ha hk) (((insertVarM_iff hm).1 _).1 hm') h
        rwa [List.append_assoc] at this

theorem parseParamsM_err {x : Texts} {name : Str} {c : Code} {t : Str} : ∀ {fs a : List ParamDecl} {vs : List VarInfo}
    {m : VarMaps}, Each ParamIs a vs → insertVars ([], []) vs = .ok m → parseParamDeclsM x name m fs = .err c t →
    ParamsFault x name (a ++ fs) t := by
  intro fs
  induction fs with
  | nil => intro a vs m _ _ h; cases h
  | cons f fs ih =>
    intro a vs m ha hm h
    have hd := (insertVars_nil.1 hm).1
    rw [parseParamDeclsM] at h
    rcases mbind_err.1 h with h | ⟨ty, hty, h⟩
    · unfold parseParamTypeM at h
      split at h <;> cases h
    · have hk : ParamIs f ⟨f.id, f.name, ty⟩ := by
        rw [← paramIs_iff]
        unfold parseParamTypeM at hty
        unfold paramOf
        split at hty <;> cases hty <;> simp [*]
      rcases mbind_err.1 h with h | ⟨m', hm', h⟩
      · obtain ⟨_, rfl, hn⟩ := ((insertVarM_iff hm).2 _ _).1 h
        exact .duplicate ha hd hk hn
      · have := ih (each_snoc ha hk) (((insertVarM_iff hm).1 _).1 hm') h
        rwa [List.append_assoc] at this

theorem keysFault_not {x : Texts} {name : Str} {fs : List MatchField} {t : Str} (h : KeysFault x name fs t)
    {vs : List VarInfo} (he : Each KeyDecl fs vs) : ¬ Distinct vs := by
  intro hd
  cases h with
  | invalid _ _ hk =>
    obtain ⟨b, b', rfl, _, h4⟩ := each_split he
    cases h4 with
    | cons h _ => cases h <;> cases hk
  | unset _ _ hk =>
    obtain ⟨b, b', rfl, _, h4⟩ := each_split he
    cases h4 with
    | cons h _ => cases h <;> cases hk
  | duplicate h1 _ h2 hn =>
    obtain ⟨b, b', rfl, h3, h4⟩ := each_split he
    cases h4 with
    | @cons _ b0 _ bs h5 _ =>
      rw [each_unique (R := KeyDecl) (fun _ _ _ => keyDecl_unique) h1 h3, keyDecl_unique h2 h5] at hn
      refine hn (distinct_prefix (b := bs) ?_)
      rwa [List.append_assoc]

theorem paramsFault_not {x : Texts} {name : Str} {fs : List ParamDecl} {t : Str} (h : ParamsFault x name fs t)
    {vs : List VarInfo} (he : Each ParamIs fs vs) : ¬ Distinct vs := by
  intro hd
  cases h with
  | duplicate h1 _ h2 hn =>
    obtain ⟨b, b', rfl, h3, h4⟩ := each_split he
    cases h4 with
    | @cons _ b0 _ bs h5 _ =>
      rw [each_unique (R := ParamIs) (fun _ _ _ => paramIs_unique) h1 h3, paramIs_unique h2 h5] at hn
      refine hn (distinct_prefix (b := bs) ?_)
      rwa [List.append_assoc]

/-! ### Tables and actions -/

theorem parseTableInfoM_err {x : Texts} {sys : Sys} {d : TableDecl} {c : Code} {m : Str}
    (h : parseTableInfoM x sys d = .err c m) :
    TableFault x sys.inetPton6 d m := by
  unfold parseTableInfoM at h
  rcases mbind_err.1 h with h | ⟨⟨byId, byName⟩, hk, h⟩
  · exact .inl (parseKeysM_err .nil rfl h)
  · dsimp only at h
    rcases mbind_err.1 h with he | ⟨_, _, he⟩
    · have hk' : parseKeys ([], []) d.matchFields = .ok (byId, byName) := by
        rw [← erase_parseKeys x d.preamble.name, hk]; rfl
      obtain ⟨vs, h3, h4⟩ := parseKeys_ok.1 hk'
      obtain ⟨h5, h6⟩ := insertVars_nil.1 h4
      cases h6
      exact .inr ⟨vs, (each_map_ok fun _ _ => keyDecl_iff).1 h3, h5,
        parseAndCheckM_err (sig_keys (maps_of h5)) rfl he⟩
    · cases he

theorem parseActionInfoM_err {x : Texts} {sys : Sys} {d : ActionDecl} {c : Code} {m : Str}
    (h : parseActionInfoM x sys d = .err c m) :
    ActionFault x sys.inetPton6 d m := by
  unfold parseActionInfoM at h
  rcases mbind_err.1 h with h | ⟨⟨byId, byName⟩, hk, h⟩
  · exact .inl (parseParamsM_err .nil rfl h)
  · dsimp only at h
    rcases mbind_err.1 h with he | ⟨_, _, he⟩
    · have hk' : parseParamDecls ([], []) d.params = .ok (byId, byName) := by
        rw [← erase_parseParamDecls x d.preamble.name, hk]; rfl
      rw [parseParamDecls_eq] at hk'
      obtain ⟨h5, h6⟩ := insertVars_nil.1 hk'
      cases h6
      exact .inr ⟨_, each_param.1 rfl, h5, parseAndCheckM_err (sig_params (maps_of h5)) rfl he⟩
    · cases he

theorem tableFault_not {x : Texts} {pton : Str → Option Bytes} {d : TableDecl} {m : Str} (h : TableFault x pton d m) :
    ¬ GoodTable pton d := by
  rintro ⟨vs, r, h1, h2, h3⟩
  rcases h with h | ⟨vs', h1', _, h⟩
  · exact keysFault_not h h1 h2
  · cases each_unique (R := KeyDecl) (fun _ _ _ => keyDecl_unique) h1 h1'
    exact constraintFault_not ⟨_, sig_keys (maps_of h2), rfl⟩ h r h3

theorem actionFault_not {x : Texts} {pton : Str → Option Bytes} {d : ActionDecl} {m : Str}
    (h : ActionFault x pton d m) : ¬ GoodAction pton d := by
  rintro ⟨vs, r, h1, h2, h3⟩
  rcases h with h | ⟨vs', h1', _, h⟩
  · exact paramsFault_not h h1 h2
  · cases each_unique (R := ParamIs) (fun _ _ _ => paramIs_unique) h1 h1'
    exact constraintFault_not ⟨_, sig_params (maps_of h2), rfl⟩ h r h3

theorem parseTableInfoM_good {x : Texts} {sys : Sys} {d : TableDecl} :
    (∃ ti, parseTableInfoM x sys d = .ok ti) ↔ GoodTable sys.inetPton6 d := by
  rw [← parseTableInfo_good]
  constructor
  · rintro ⟨ti, h⟩; exact ⟨ti, by rw [← erase_parseTableInfo x, h]; rfl⟩
  · rintro ⟨ti, h⟩; exact ⟨ti, erased_ok (by rw [erase_parseTableInfo, h])⟩

theorem parseActionInfoM_good {x : Texts} {sys : Sys} {d : ActionDecl} :
    (∃ ti, parseActionInfoM x sys d = .ok ti) ↔ GoodAction sys.inetPton6 d := by
  rw [← parseActionInfo_good]
  constructor
  · rintro ⟨ti, h⟩; exact ⟨ti, by rw [← erase_parseActionInfo x, h]; rfl⟩
  · rintro ⟨ti, h⟩; exact ⟨ti, erased_ok (by rw [erase_parseActionInfo, h])⟩

theorem collectM_reports {δ ι : Type} {parse : δ → MRes ι} {id : δ → Nat} {dup : δ → Str} {Good : δ → Prop}
    {Bad : δ → Str → Prop} (hg : ∀ d i, parse d = .ok i → Good d) :
    ∀ {ds : List δ} {m m' : List (Nat × ι)} {ms : List Str}, (∀ d ∈ ds, ∀ c t, parse d = .err c t → Bad d t) →
      collectM parse id dup m ds = .ok (m', ms) → Reports Good Bad id dup (m.map Prod.fst) ds ms := by
  intro ds
  induction ds with
  | nil => intro m m' ms _ h; cases h; exact .nil
  | cons d ds ih =>
    intro m m' ms hb h
    have hb' : ∀ d ∈ ds, ∀ c t, parse d = .err c t → Bad d t := fun d hd => hb d (List.mem_cons_of_mem _ hd)
    rw [collectM] at h
    cases hp : parse d with
    | ok i =>
      rw [hp] at h
      dsimp only at h
      by_cases hk : hasKey (id d) m = true
      · rw [insertNew, if_pos hk] at h
        dsimp only at h
        obtain ⟨⟨m1, ms1⟩, h1, h2⟩ := mbind_ok.1 h
        cases h2
        refine .duplicate (hg d i hp) ?_ (ih hb' h1)
        simpa only [← hasKey_keys] using hk
      · rw [insertNew, if_neg hk] at h
        dsimp only at h
        refine .fine (hg d i hp) ?_ (ih hb' h)
        simpa only [← hasKey_keys] using hk
    | err c t =>
      rw [hp] at h
      dsimp only at h
      obtain ⟨⟨m1, ms1⟩, h1, h2⟩ := mbind_ok.1 h
      cases h2
      exact .bad (hb d List.mem_cons_self c t hp) (ih hb' h1)
    | crash => rw [hp] at h; cases h
    | oof => rw [hp] at h; cases h

theorem collectM_err {δ ι : Type} {parse : δ → MRes ι} {id : δ → Nat} {dup : δ → Str} {c : Code} {t : Str} :
    ∀ {ds : List δ} {m : List (Nat × ι)}, collectM parse id dup m ds ≠ .err c t := by
  intro ds
  induction ds with
  | nil => intro m h; cases h
  | cons d ds ih =>
    intro m h
    rw [collectM] at h
    cases hp : parse d with
    | ok i =>
      rw [hp] at h
      dsimp only at h
      cases hi : insertNew (id d) i m with
      | some m1 => rw [hi] at h; exact ih h
      | none =>
        rw [hi] at h
        rcases mbind_err.1 h with h | ⟨_, _, h⟩
        · exact ih h
        · cases h
    | err c t =>
      rw [hp] at h
      rcases mbind_err.1 h with h | ⟨_, _, h⟩
      · exact ih h
      · cases h
    | crash => rw [hp] at h; cases h
    | oof => rw [hp] at h; cases h

theorem joinErrors_eq : ∀ {ms : List Str}, ms ≠ [] → c!"- " ++ joinErrors ms = join c!"\n" (ms.map fun m => c!"- " ++ m ++ c!"\n")
  | [], h => absurd rfl h
  | [m], _ => by simp [joinErrors, join]
  | m :: m' :: ms, _ => by
    have ih := joinErrors_eq (ms := m' :: ms) (by simp)
    rw [List.map_cons, List.map_cons, join_cons, ← List.map_cons (f := fun m => c!"- " ++ m ++ c!"\n"), ← ih]
    simp [joinErrors]

/-! ### Programs -/

theorem program_reports {x : Texts} {sys : Sys} {p : P4Info} :
    (∀ ci, p4ToConstraintInfoM x sys p = .ok ci → ProgramReports x sys.inetPton6 p []) ∧
    ∀ c m, p4ToConstraintInfoM x sys p = .err c m → c = .invalidArgument ∧
      ∃ ms, ms ≠ [] ∧ ProgramReports x sys.inetPton6 p ms ∧ m = bulletList ms := by
  have key : ∀ {ts as ms₁ ms₂},
      collectM (parseTableInfoM x sys) (fun t => t.preamble.id) (fun t => c!"duplicate table: " ++ x.table t) [] p.tables =
        .ok (ts, ms₁) →
      collectM (parseActionInfoM x sys) (fun t => t.preamble.id) (fun t => c!"duplicate action: " ++ x.action t) []
        p.actions = .ok (as, ms₂) → ProgramReports x sys.inetPton6 p (ms₁ ++ ms₂) := by
    intro ts as ms₁ ms₂ h1 h2
    exact ⟨ms₁, ms₂, rfl,
      collectM_reports (fun d i h => parseTableInfoM_good.1 ⟨i, h⟩) (fun d hd c t h => parseTableInfoM_err h) h1,
      collectM_reports (fun d i h => parseActionInfoM_good.1 ⟨i, h⟩)
        (fun d hd c t h => parseActionInfoM_err h) h2⟩
  constructor
  · intro ci h
    unfold p4ToConstraintInfoM at h
    obtain ⟨⟨ts, ms₁⟩, h1, h⟩ := mbind_ok.1 h
    obtain ⟨⟨as, ms₂⟩, h2, h⟩ := mbind_ok.1 h
    dsimp only at h
    by_cases he : ms₁ ++ ms₂ = []
    · rw [← he]; exact key h1 h2
    · rw [if_neg he] at h; cases h
  · intro c m h
    unfold p4ToConstraintInfoM at h
    rcases mbind_err.1 h with h | ⟨⟨ts, ms₁⟩, h1, h⟩
    · exact absurd h collectM_err
    rcases mbind_err.1 h with h | ⟨⟨as, ms₂⟩, h2, h⟩
    · exact absurd h collectM_err
    dsimp only at h
    by_cases he : ms₁ ++ ms₂ = []
    · rw [if_pos he] at h; cases h
    · rw [if_neg he] at h
      injection h with h3 h4
      refine ⟨h3.symm, _, he, key h1 h2, ?_⟩
      rw [← h4, bulletList, ← joinErrors_eq he]
      rfl

/-! ### Crashes -/

theorem mbind_crash {α β : Type} {r : MRes α} {f : α → MRes β} :
    (r >>= f) = .crash ↔ r = .crash ∨ ∃ a, r = .ok a ∧ f a = .crash := by
  cases r <;> simp [bind, MRes.bind]

theorem parseAndCheckM_crash {x : Texts} {sys : Sys} {k : ConstraintKind} {p : Preamble} {sc : Scope} {Γ : Sig}
    (hΓ : sigOf sc = Γ) (hk : sc.isAction = decide (k = .action))
    (h : parseAndCheckM x sys k p sc = .crash) :
    SplitFault sys.inetPton6 k Γ p := by
  subst hΓ
  unfold parseAndCheckM at h
  rcases mbind_crash.1 h with h | ⟨o, ho, h⟩
  · exfalso
    have h' := erase_extractConstraint k p
    rw [h] at h'
    rcases extract_total k p with ⟨o, h1⟩ | h1 <;> rw [h1] at h' <;> cases h'
  · cases o with
    | none => cases h
    | some src =>
      have ha := attachedM.1 ho
      obtain ⟨hset, hline, hcol⟩ := attached_named ha
      have hl : Lexed src.loc src.str (tokenize src) := (C19_lexical_structure src _).1 rfl
      rcases mbind_crash.1 h with h | ⟨e, he, h⟩
      · exfalso
        have h' := erase_parseConstraint x sys k src
        rw [h] at h'
        rcases C43_no_crash (sys := sys) (k := k) hcol with ⟨o, h1⟩ | h1 | h1 <;> rw [h1] at h' <;> cases h'
      · rcases mbind_crash.1 h with h | ⟨e', he', h⟩
        · have hp : parseConstraint sys k src = .ok e := by rw [← erase_parseConstraint x, he]; rfl
          rcases type_any (x := x) (sc := sc) hp hline hcol with
            ⟨⟨e', h'⟩, _⟩ | ⟨y, a, b, text, h1, h2, ⟨⟨c', m', h', h3⟩, _⟩ | ⟨_, _, h3, _⟩⟩
          · rw [h'] at h; cases h
          · rw [h'] at h; cases h
          · rw [hk] at h2
            exact ⟨src, _, e, y, a, b, text, ha, hl, (C23_grammar_text ..).1 hp, h1, h2, h3.1⟩
        · cases h

theorem insertVarM_crash {dup : Str} {v : VarInfo} {m : VarMaps} : insertVarM dup v m ≠ .crash := by
  unfold insertVarM
  cases insertNew v.id v m.1 with
  | none => nofun
  | some a =>
    dsimp only
    cases insertNew v.name v m.2 <;> nofun

theorem parseKeysM_crash {x : Texts} {name : Str} : ∀ {fs : List MatchField} {m : VarMaps},
    parseKeysM x name m fs ≠ .crash := by
  intro fs
  induction fs with
  | nil => intro m h; cases h
  | cons f fs ih =>
    intro m h
    rw [parseKeysM] at h
    rcases mbind_crash.1 h with h | ⟨ty, hty, h⟩
    · unfold parseKeyTypeM at h
      split at h <;> cases h
    · rcases mbind_crash.1 h with h | ⟨m', hm', h⟩
      · exact insertVarM_crash h
      · exact ih h

theorem parseParamsM_crash {x : Texts} {name : Str} : ∀ {fs : List ParamDecl} {m : VarMaps},
    parseParamDeclsM x name m fs ≠ .crash := by
  intro fs
  induction fs with
  | nil => intro m h; cases h
  | cons f fs ih =>
    intro m h
    rw [parseParamDeclsM] at h
    rcases mbind_crash.1 h with h | ⟨ty, hty, h⟩
    · unfold parseParamTypeM at h
      split at h <;> cases h
    · rcases mbind_crash.1 h with h | ⟨m', hm', h⟩
      · exact insertVarM_crash h
      · exact ih h

theorem parseTableInfoM_crash {x : Texts} {sys : Sys} {d : TableDecl}
    (h : parseTableInfoM x sys d = .crash) :
    ∃ vs, Each KeyDecl d.matchFields vs ∧ Distinct vs ∧ SplitFault sys.inetPton6 .table (keySig vs) d.preamble := by
  unfold parseTableInfoM at h
  rcases mbind_crash.1 h with h | ⟨⟨byId, byName⟩, hk, h⟩
  · exact absurd h parseKeysM_crash
  · dsimp only at h
    rcases mbind_crash.1 h with he | ⟨_, _, he⟩
    · have hk' : parseKeys ([], []) d.matchFields = .ok (byId, byName) := by
        rw [← erase_parseKeys x d.preamble.name, hk]; rfl
      obtain ⟨vs, h3, h4⟩ := parseKeys_ok.1 hk'
      obtain ⟨h5, h6⟩ := insertVars_nil.1 h4
      cases h6
      exact ⟨vs, (each_map_ok fun _ _ => keyDecl_iff).1 h3, h5,
        parseAndCheckM_crash (sig_keys (maps_of h5)) rfl he⟩
    · cases he

theorem parseActionInfoM_crash {x : Texts} {sys : Sys} {d : ActionDecl}
    (h : parseActionInfoM x sys d = .crash) :
    ∃ vs, Each ParamIs d.params vs ∧ Distinct vs ∧ SplitFault sys.inetPton6 .action (paramSig vs) d.preamble := by
  unfold parseActionInfoM at h
  rcases mbind_crash.1 h with h | ⟨⟨byId, byName⟩, hk, h⟩
  · exact absurd h parseParamsM_crash
  · dsimp only at h
    rcases mbind_crash.1 h with he | ⟨_, _, he⟩
    · have hk' : parseParamDecls ([], []) d.params = .ok (byId, byName) := by
        rw [← erase_parseParamDecls x d.preamble.name, hk]; rfl
      rw [parseParamDecls_eq] at hk'
      obtain ⟨h5, h6⟩ := insertVars_nil.1 hk'
      cases h6
      exact ⟨_, each_param.1 rfl, h5, parseAndCheckM_crash (sig_params (maps_of h5)) rfl he⟩
    · cases he

theorem collectM_crash {δ ι : Type} {parse : δ → MRes ι} {id : δ → Nat} {dup : δ → Str} :
    ∀ {ds : List δ} {m : List (Nat × ι)}, collectM parse id dup m ds = .crash → ∃ d ∈ ds, parse d = .crash := by
  intro ds
  induction ds with
  | nil => intro m h; cases h
  | cons d ds ih =>
    intro m h
    have ih' : ∀ {m : List (Nat × ι)}, collectM parse id dup m ds = .crash → ∃ d' ∈ d :: ds, parse d' = .crash := by
      intro m h
      obtain ⟨d', h1, h2⟩ := ih h
      exact ⟨d', List.mem_cons_of_mem _ h1, h2⟩
    rw [collectM] at h
    cases hp : parse d with
    | ok i =>
      rw [hp] at h
      dsimp only at h
      cases hi : insertNew (id d) i m with
      | some m1 => rw [hi] at h; exact ih' h
      | none =>
        rw [hi] at h
        rcases mbind_crash.1 h with h | ⟨_, _, h⟩
        · exact ih' h
        · cases h
    | err c t =>
      rw [hp] at h
      rcases mbind_crash.1 h with h | ⟨_, _, h⟩
      · exact ih' h
      · cases h
    | crash => exact ⟨d, List.mem_cons_self, hp⟩
    | oof => rw [hp] at h; cases h

theorem program_crash {x : Texts} {sys : Sys} {p : P4Info}
    (h : p4ToConstraintInfoM x sys p = .crash) : SplitProgram sys.inetPton6 p := by
  unfold p4ToConstraintInfoM at h
  rcases mbind_crash.1 h with h | ⟨⟨ts, ms₁⟩, h1, h⟩
  · obtain ⟨d, hd, h⟩ := collectM_crash h
    exact .inl ⟨d, hd, parseTableInfoM_crash h⟩
  rcases mbind_crash.1 h with h | ⟨⟨as, ms₂⟩, h2, h⟩
  · obtain ⟨d, hd, h⟩ := collectM_crash h
    exact .inr ⟨d, hd, parseActionInfoM_crash h⟩
  dsimp only at h
  split at h <;> cases h

/-! ### Which definitions are reported -/

theorem reports_length {δ : Type} {Good : δ → Prop} {Bad : δ → Str → Prop} {id : δ → Nat} {dup : δ → Str}
    (hb : ∀ {d m}, Bad d m → ¬ Good d) {ds : List δ} : ∀ {seen : List Nat} {ms ms' : List Str},
    Reports Good Bad id dup seen ds ms → Reports Good Bad id dup seen ds ms' → ms.length = ms'.length := by
  induction ds with
  | nil => intro seen ms ms' h h'; cases h; cases h'; rfl
  | cons d ds ih =>
    intro seen ms ms' h h'
    cases h with
    | fine h1 h2 h3 =>
      cases h' with
      | fine _ _ h3' => exact ih h3 h3'
      | duplicate _ h2' => exact absurd h2' h2
      | bad h1' => exact absurd h1 (hb h1')
    | duplicate h1 h2 h3 =>
      cases h' with
      | fine _ h2' => exact absurd h2 h2'
      | duplicate _ _ h3' => simpa using ih h3 h3'
      | bad h1' => exact absurd h1 (hb h1')
    | bad h1 h3 =>
      cases h' with
      | fine h1' => exact absurd h1' (hb h1)
      | duplicate h1' => exact absurd h1' (hb h1)
      | bad _ h3' => simpa using ih h3 h3'

theorem reports_nil {δ : Type} {Good : δ → Prop} {Bad : δ → Str → Prop} {id : δ → Nat} {dup : δ → Str} {ds : List δ} :
    ∀ {seen : List Nat}, Reports Good Bad id dup seen ds [] →
      (∀ d ∈ ds, Good d) ∧ (ds.map id).Nodup ∧ ∀ d ∈ ds, id d ∉ seen := by
  induction ds with
  | nil => intro seen h; simp
  | cons d ds ih =>
    intro seen h
    cases h with
    | fine h1 h2 h3 =>
      obtain ⟨i1, i2, i3⟩ := ih h3
      refine ⟨by simpa using ⟨h1, i1⟩, ?_, ?_⟩
      · rw [List.map_cons, List.nodup_cons]
        refine ⟨?_, i2⟩
        intro hm
        obtain ⟨e, he, hid⟩ := List.mem_map.1 hm
        exact i3 e he (by rw [hid]; exact List.mem_cons_self)
      · intro e he
        rcases List.mem_cons.1 he with rfl | he
        · exact h2
        · exact fun hm => i3 e he (List.mem_cons_of_mem _ hm)

theorem reports_good {δ : Type} {Good : δ → Prop} {Bad : δ → Str → Prop} {id : δ → Nat} {dup : δ → Str} {ds : List δ} :
    ∀ {seen : List Nat}, (∀ d ∈ ds, Good d) → (ds.map id).Nodup → (∀ d ∈ ds, id d ∉ seen) →
      Reports Good Bad id dup seen ds [] := by
  induction ds with
  | nil => intro seen _ _ _; exact .nil
  | cons d ds ih =>
    intro seen hg hn hs
    rw [List.map_cons, List.nodup_cons] at hn
    refine .fine (hg d List.mem_cons_self) (hs d List.mem_cons_self)
      (ih (fun e he => hg e (List.mem_cons_of_mem _ he)) hn.2 fun e he hm => ?_)
    rcases List.mem_cons.1 hm with h | h
    · exact hn.1 (List.mem_map.2 ⟨e, he, h⟩)
    · exact hs e (List.mem_cons_of_mem _ he) h

/-! ### One message per definition -/

/-- The first element that does not go well with those before it is unique. -/
theorem first_bad {α : Type} {Fine : List α → Prop} (hp : ∀ {a b}, Fine (a ++ b) → Fine a) {a b a' b' : List α} {f f' : α}
    (he : a ++ f :: b = a' ++ f' :: b') (h1 : Fine a) (h2 : ¬ Fine (a ++ [f])) (h1' : Fine a') (h2' : ¬ Fine (a' ++ [f'])) :
    a = a' ∧ f = f' ∧ b = b' := by
  rcases List.append_eq_append_iff.1 he with ⟨c, rfl, h⟩ | ⟨c, rfl, h⟩
  · cases c with
    | nil =>
      simp only [List.nil_append, List.cons.injEq] at h
      exact ⟨by simp, h.1, h.2⟩
    | cons g c =>
      rw [List.cons_append, List.cons.injEq] at h
      obtain ⟨rfl, _⟩ := h
      exact (h2 (hp (b := c) (by simpa using h1'))).elim
  · cases c with
    | nil =>
      simp only [List.nil_append, List.cons.injEq] at h
      exact ⟨by simp, h.1.symm, h.2.symm⟩
    | cons g c =>
      rw [List.cons_append, List.cons.injEq] at h
      obtain ⟨rfl, _⟩ := h
      exact (h2' (hp (b := c) (by simpa using h1))).elim

def FineKeys (a : List MatchField) : Prop := ∃ vs, Each KeyDecl a vs ∧ Distinct vs

theorem fineKeys_prefix {a b : List MatchField} (h : FineKeys (a ++ b)) : FineKeys a := by
  obtain ⟨vs, h1, h2⟩ := h
  obtain ⟨u, v, rfl, h3, _⟩ := each_split h1
  exact ⟨u, h3, distinct_prefix h2⟩

theorem keysFault_first {x : Texts} {name : Str} {fs : List MatchField} {t : Str} (h : KeysFault x name fs t) :
    ∃ a f b, fs = a ++ f :: b ∧ FineKeys a ∧ ¬ FineKeys (a ++ [f]) ∧
      (f.kind = .matchType .invalid ∧ t = c!"match key of invalid MatchType: " ++ x.matchType f ∨
       f.kind = .notSet ∧ t = c!"unknown MatchField.match case: " ++ x.matchType f ∨
       (∃ v, KeyDecl f v) ∧ t = c!"table " ++ name ++ c!" has duplicate key: " ++ x.matchField f) := by
  cases h with
  | @invalid a b f vs h1 h2 h3 =>
    exact ⟨a, f, b, rfl, ⟨vs, h1, h2⟩, fun ⟨us, g1, g2⟩ => keysFault_not (x := x) (name := name) (.invalid (b := []) h1 h2 h3) g1 g2,
      .inl ⟨h3, rfl⟩⟩
  | @unset a b f vs h1 h2 h3 =>
    exact ⟨a, f, b, rfl, ⟨vs, h1, h2⟩, fun ⟨us, g1, g2⟩ => keysFault_not (x := x) (name := name) (.unset (b := []) h1 h2 h3) g1 g2,
      .inr (.inl ⟨h3, rfl⟩)⟩
  | @duplicate a b f vs v h1 h2 h3 h4 =>
    exact ⟨a, f, b, rfl, ⟨vs, h1, h2⟩, fun ⟨us, g1, g2⟩ => keysFault_not (x := x) (name := name) (.duplicate (b := []) h1 h2 h3 h4) g1 g2,
      .inr (.inr ⟨⟨v, h3⟩, rfl⟩)⟩

theorem keysFault_unique {x : Texts} {name : Str} {fs : List MatchField} {t t' : Str} (h : KeysFault x name fs t)
    (h' : KeysFault x name fs t') : t = t' := by
  obtain ⟨a, f, b, rfl, h1, h2, h3⟩ := keysFault_first h
  obtain ⟨a', f', b', he, h1', h2', h3'⟩ := keysFault_first h'
  obtain ⟨rfl, rfl, rfl⟩ := first_bad fineKeys_prefix he h1 h2 h1' h2'
  rcases h3 with ⟨h3, rfl⟩ | ⟨h3, rfl⟩ | ⟨⟨v, h3⟩, rfl⟩ <;> rcases h3' with ⟨h3', rfl⟩ | ⟨h3', rfl⟩ | ⟨⟨v', h3'⟩, rfl⟩ <;>
    first | rfl | (rw [h3] at h3'; cases h3') | (cases h3 <;> cases h3') | (cases h3' <;> cases h3)

def FineParams (a : List ParamDecl) : Prop := ∃ vs, Each ParamIs a vs ∧ Distinct vs

theorem fineParams_prefix {a b : List ParamDecl} (h : FineParams (a ++ b)) : FineParams a := by
  obtain ⟨vs, h1, h2⟩ := h
  obtain ⟨u, v, rfl, h3, _⟩ := each_split h1
  exact ⟨u, h3, distinct_prefix h2⟩

theorem paramsFault_unique {x : Texts} {name : Str} {fs : List ParamDecl} {t t' : Str} (h : ParamsFault x name fs t)
    (h' : ParamsFault x name fs t') : t = t' := by
  have first : ∀ {t}, ParamsFault x name fs t → ∃ a f b, fs = a ++ f :: b ∧ FineParams a ∧ ¬ FineParams (a ++ [f]) ∧
      t = c!"action " ++ name ++ c!" has duplicate param: " ++ x.param f := by
    intro t h
    cases h with
    | @duplicate a b f vs v h1 h2 h3 h4 =>
      exact ⟨a, f, b, rfl, ⟨vs, h1, h2⟩,
        fun ⟨us, g1, g2⟩ => paramsFault_not (x := x) (name := name) (.duplicate (b := []) h1 h2 h3 h4) g1 g2, rfl⟩
  obtain ⟨a, f, b, he, h1, h2, rfl⟩ := first h
  obtain ⟨a', f', b', he', h1', h2', rfl⟩ := first h'
  obtain ⟨_, rfl, _⟩ := first_bad fineParams_prefix (he.symm.trans he') h1 h2 h1' h2'
  rfl

theorem constraintFault_unique {x : Texts} {pton : Str → Option Bytes} {k : ConstraintKind} {Γ : Sig} {p : Preamble}
    {m m' : Str} (hΓ : ∃ sc, sigOf sc = Γ ∧ sc.isAction = decide (k = .action)) (h : ConstraintFault x pton k Γ p m)
    (h' : ConstraintFault x pton k Γ p m') : m = m' := by
  obtain ⟨sc, rfl, hk⟩ := hΓ
  have ann : ∀ {m src}, AnnotationFault k p m → ¬ Attached k p (some src) := by
    intro m src h ha
    have h1 := extractM_err.2 ⟨rfl, h⟩
    rw [attachedM.2 ha] at h1
    cases h1
  have parses : ∀ {src : ConstraintSource} {e : Expr}, Constraint pton k (tokenize src) e → parseConstraint ⟨pton⟩ k src = .ok e :=
    fun h => (C23_grammar_text ⟨pton⟩ ..).2 h
  cases h with
  | annotation h =>
    cases h' with
    | annotation h' =>
      have h1 := extractM_err.2 ⟨rfl, h⟩
      rw [extractM_err.2 ⟨rfl, h'⟩] at h1
      cases h1
      rfl
    | address ha => exact (ann h ha).elim
    | «syntax» ha => exact (ann h ha).elim
    | type ha => exact (ann h ha).elim
  | @address src ts _ _ it _ _ ha hl h1 h2 h3 =>
    obtain rfl := (C19_lexical_structure src _).2 hl
    cases h' with
    | annotation h' => exact (ann h' ha).elim
    | address ha' hl' h1' h2' h3' =>
      cases attached_unique ha ha'
      obtain rfl := (C19_lexical_structure src _).2 hl'
      exact ((C52_exclusive (t := it) h1 h2 h3).2 h1' h2' h3').2.2.2.2
    | «syntax» ha' hl' h1' h2' =>
      cases attached_unique ha ha'
      obtain rfl := (C19_lexical_structure src _).2 hl'
      exact ((C52_exclusive h1 h2 h3).1 h1' h2').elim
    | type ha' hl' hc' =>
      cases attached_unique ha ha'
      obtain rfl := (C19_lexical_structure src _).2 hl'
      exact ((C52_rejected (parses hc')).2 _ _ _ _ _ h1 h3).elim
  | @«syntax» src ts _ _ tk _ _ _ ha hl h1 h2 h3 h4 =>
    obtain rfl := (C19_lexical_structure src _).2 hl
    cases h' with
    | annotation h' => exact (ann h' ha).elim
    | address ha' hl' h1' h2' h3' =>
      cases attached_unique ha ha'
      obtain rfl := (C19_lexical_structure src _).2 hl'
      exact ((C52_exclusive h1' h2' h3').1 h1 h2).elim
    | «syntax» ha' hl' h1' h2' h3' h4' =>
      cases attached_unique ha ha'
      obtain rfl := (C19_lexical_structure src _).2 hl'
      obtain ⟨rfl, rfl, rfl⟩ := C52_unique h1 h1'
      cases C52_complaint h3 h3'
      obtain ⟨_, hline, hcol⟩ := attached_named ha
      obtain ⟨g1, g2, g3, g4, g5, g6⟩ := token_where hline hcol (t := tk) (by rw [h1.1]; simp)
      exact (shown_unique g1 g2 g3 g4 g5 g6 h4 h4').2
    | type ha' hl' hc' =>
      cases attached_unique ha ha'
      obtain rfl := (C19_lexical_structure src _).2 hl'
      exact ((C52_rejected (parses hc')).1 _ _ _ h1).elim
  | @type src ts e y a b text _ _ ha hl hc hf hy hs =>
    obtain rfl := (C19_lexical_structure src _).2 hl
    cases h' with
    | annotation h' => exact (ann h' ha).elim
    | address ha' hl' h1' h2' h3' =>
      cases attached_unique ha ha'
      obtain rfl := (C19_lexical_structure src _).2 hl'
      exact ((C52_rejected (parses hc)).2 _ _ _ _ _ h1' h3').elim
    | «syntax» ha' hl' h1' h2' =>
      cases attached_unique ha ha'
      obtain rfl := (C19_lexical_structure src _).2 hl'
      exact ((C52_rejected (parses hc)).1 _ _ _ h1').elim
    | @type src' ts' e' y' a' b' text' _ _ ha' hl' hc' hf' hy' hs' =>
      cases attached_unique ha ha'
      obtain rfl := (C19_lexical_structure src _).2 hl'
      have hp := parses hc
      obtain rfl : e = e' := by
        have := parses hc'
        rw [hp] at this
        injection this
      rw [← hk] at hy hy'
      obtain ⟨rfl, rfl, rfl, rfl⟩ := (C54_unique hf hy).1 hf' hy'
      obtain ⟨_, hline, hcol⟩ := attached_named ha
      obtain ⟨g1, g2, g3, g4, g5, g6⟩ := fault_where hp hcol hf hy
      exact (shown_unique g1 g2 (by omega) g4 g5 g6 hs hs').2

theorem tableFault_unique {x : Texts} {pton : Str → Option Bytes} {d : TableDecl} {m m' : Str} (h : TableFault x pton d m)
    (h' : TableFault x pton d m') : m = m' := by
  rcases h with h | ⟨vs, h1, h2, h3⟩
  · rcases h' with h' | ⟨vs, h1, h2, _⟩
    · exact keysFault_unique h h'
    · exact (keysFault_not h h1 h2).elim
  · rcases h' with h' | ⟨vs', h1', h2', h3'⟩
    · exact (keysFault_not h' h1 h2).elim
    · cases each_unique (R := KeyDecl) (fun _ _ _ => keyDecl_unique) h1 h1'
      exact constraintFault_unique ⟨_, sig_keys (maps_of h2), rfl⟩ h3 h3'

theorem actionFault_unique {x : Texts} {pton : Str → Option Bytes} {d : ActionDecl} {m m' : Str} (h : ActionFault x pton d m)
    (h' : ActionFault x pton d m') : m = m' := by
  rcases h with h | ⟨vs, h1, h2, h3⟩
  · rcases h' with h' | ⟨vs, h1, h2, _⟩
    · exact paramsFault_unique h h'
    · exact (paramsFault_not h h1 h2).elim
  · rcases h' with h' | ⟨vs', h1', h2', h3'⟩
    · exact (paramsFault_not h' h1 h2).elim
    · cases each_unique (R := ParamIs) (fun _ _ _ => paramIs_unique) h1 h1'
      exact constraintFault_unique ⟨_, sig_params (maps_of h2), rfl⟩ h3 h3'

theorem reports_unique {δ : Type} {Good : δ → Prop} {Bad : δ → Str → Prop} {id : δ → Nat} {dup : δ → Str}
    (hb : ∀ {d m}, Bad d m → ¬ Good d) (hu : ∀ {d m m'}, Bad d m → Bad d m' → m = m') {ds : List δ} :
    ∀ {seen : List Nat} {ms ms' : List Str},
    Reports Good Bad id dup seen ds ms → Reports Good Bad id dup seen ds ms' → ms = ms' := by
  induction ds with
  | nil => intro seen ms ms' h h'; cases h; cases h'; rfl
  | cons d ds ih =>
    intro seen ms ms' h h'
    cases h with
    | fine h1 h2 h3 =>
      cases h' with
      | fine _ _ h3' => exact ih h3 h3'
      | duplicate _ h2' => exact absurd h2' h2
      | bad h1' => exact absurd h1 (hb h1')
    | duplicate h1 h2 h3 =>
      cases h' with
      | fine _ h2' => exact absurd h2 h2'
      | duplicate _ _ h3' => rw [ih h3 h3']
      | bad h1' => exact absurd h1 (hb h1')
    | bad h1 h3 =>
      cases h' with
      | fine h1' => exact absurd h1' (hb h1)
      | duplicate h1' => exact absurd h1' (hb h1)
      | bad h1' h3' => rw [ih h3 h3', hu h1 h1']

end P4C
