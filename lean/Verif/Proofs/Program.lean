import Verif.Spec.Program
import Verif.Proofs.Annotation
import Verif.Proofs.Entry3
import Verif.Props.Types
import Verif.Props.Grammar
import Verif.Props.Lexing

/-
Definitions read from programs.
-/

namespace P4C

open Spec

/-! ### Annotations -/

theorem cstr_split {body rest : Str} (hb : '\x00' ∉ body) (hr : ∀ c, rest.head? = some c → c = '\x00') :
    cstr (body ++ rest) = body := by
  unfold cstr
  induction body with
  | nil =>
    cases rest with
    | nil => rfl
    | cons c cs =>
      have := hr c rfl
      subst this
      rw [List.nil_append, List.takeWhile_cons]
      rfl
  | cons c cs ih =>
    have hc : c ≠ '\x00' := fun h => hb (h ▸ List.mem_cons_self)
    rw [List.cons_append, List.takeWhile_cons, if_pos (by simpa using hc), ih fun h => hb (List.mem_cons_of_mem _ h)]

theorem takeWhile_not {q : Char → Bool} {s : Str} {c : Char} (h : c ∈ s.takeWhile q) (hc : q c = false) : False := by
  induction s with
  | nil => cases h
  | cons x s ih =>
    rw [List.takeWhile_cons] at h
    split at h
    · rename_i hx
      rcases List.mem_cons.1 h with rfl | h
      · rw [hc] at hx
        cases hx
      · exact ih h
    · cases h

theorem cstr_parts (s : Str) : ∃ rest, s = cstr s ++ rest ∧ '\x00' ∉ cstr s ∧ ∀ c, rest.head? = some c → c = '\x00' := by
  refine ⟨s.dropWhile (· ≠ '\x00'), (List.takeWhile_append_dropWhile).symm, ?_, ?_⟩
  · intro h
    exact takeWhile_not h (by decide)
  · intro c hc
    have := List.head?_dropWhile_not (fun x : Char => decide (x ≠ '\x00')) s
    rw [hc] at this
    simpa using this

/-- Either there is no restriction, or there is a first one. -/
theorem first_restriction (k : ConstraintKind) : ∀ as : List Str, (∀ a ∈ as, ¬ restriction k <+: a) ∨
    ∃ pre body post, as = pre ++ (restriction k ++ body) :: post ∧ ∀ a ∈ pre, ¬ restriction k <+: a := by
  intro as
  induction as with
  | nil => exact .inl nofun
  | cons a as ih =>
    by_cases h : restriction k <+: a
    · obtain ⟨body, rfl⟩ := h
      exact .inr ⟨[], body, as, rfl, nofun⟩
    · rcases ih with ih | ⟨pre, body, post, rfl, hp⟩
      · refine .inl fun b hb => ?_
        rcases List.mem_cons.1 hb with rfl | hb
        · exact h
        · exact ih b hb
      · refine .inr ⟨a :: pre, body, post, rfl, fun b hb => ?_⟩
        rcases List.mem_cons.1 hb with rfl | hb
        · exact h
        · exact hp b hb

theorem attached_iff {k : ConstraintKind} {p : Preamble} {o : Option ConstraintSource} :
    extractConstraint k p = .ok o ↔ Attached k p o := by
  constructor
  · intro h
    rcases first_restriction k p.annotations with ha | ⟨pre, body, post, ha, hpre⟩
    · rw [extract_none ha] at h
      cases h
      exact .absent ha
    · obtain ⟨f, n, hpos⟩ := position_exists pre
      obtain ⟨h1, h2⟩ := extract_at ha hpre hpos
      obtain ⟨rest, hr, hn, hh⟩ := cstr_parts body
      by_cases hb : cstr body = []
      · rw [h1 hb] at h
        cases h
        refine .bare ha hpre ?_
        rw [hb] at hr
        rw [hr]
        exact hh
      · obtain ⟨h3, h4⟩ := h2 hb
        by_cases hq : ∃ parts, Quoted (cstr body) parts
        · obtain ⟨parts, hq⟩ := hq
          rw [h3 parts hq] at h
          cases h
          exact .text (rest := rest) (by rw [← hr]; exact ha) hpre hn hh hq hpos
        · rw [h4 fun parts hp => hq ⟨parts, hp⟩] at h
          cases h
  · intro h
    cases h with
    | absent ha => exact extract_none ha
    | bare ha hpre hr =>
      obtain ⟨f, n, hpos⟩ := position_exists _
      refine (extract_at ha hpre hpos).1 ?_
      have := cstr_split (body := []) nofun hr
      exact this
    | text ha hpre hn hr hq hpos =>
      have hc := cstr_split hn hr
      obtain ⟨_, h2⟩ := extract_at ha hpre hpos
      rw [hc] at h2
      refine (h2 ?_).1 _ hq
      rw [hq.2.2]
      nofun

theorem extract_total (k : ConstraintKind) (p : Preamble) :
    (∃ o, extractConstraint k p = .ok o) ∨ extractConstraint k p = .err .invalidArgument := by
  unfold extractConstraint
  dsimp only
  split
  · exact .inl ⟨_, rfl⟩
  · split
    · exact .inr rfl
    · split
      · exact .inr rfl
      · exact .inl ⟨_, rfl⟩

/-! ### Variables -/

theorem keyDecl_iff {f : MatchField} {v : VarInfo} :
    (fun t => (⟨f.id, f.name, t⟩ : VarInfo)) <$> parseKeyType f = .ok v ↔ KeyDecl f v := by
  rw [Res.map_eq_ok]
  constructor
  · rintro ⟨t, ht, rfl⟩
    obtain ⟨id, n, w, kind⟩ := f
    unfold parseKeyType at ht
    cases kind with
    | notSet => cases ht
    | otherMatchType k =>
      cases ht
      exact .other ..
    | matchType t' =>
      cases t' <;> cases ht
      · exact .exact ..
      · exact .lpm ..
      · exact .ternary ..
      · exact .range ..
      · exact .optional ..
  · intro h
    cases h <;> exact ⟨_, rfl, rfl⟩

theorem each_map_ok {α β : Type} {g : α → Res β} {R : α → β → Prop} (hg : ∀ a b, g a = .ok b ↔ R a b) :
    ∀ {as : List α} {bs : List β}, as.map g = bs.map Res.ok ↔ Each R as bs := by
  intro as
  induction as with
  | nil =>
    intro bs
    cases bs with
    | nil => exact ⟨fun _ => .nil, fun _ => rfl⟩
    | cons b bs => exact ⟨nofun, nofun⟩
  | cons a as ih =>
    intro bs
    cases bs with
    | nil => exact ⟨nofun, nofun⟩
    | cons b bs =>
      rw [List.map_cons, List.map_cons]
      constructor
      · intro h
        injection h with h1 h2
        exact .cons ((hg a b).1 h1) (ih.1 h2)
      · intro h
        cases h with
        | cons h1 h2 => rw [(hg a b).2 h1, ih.2 h2]

theorem paramIs_iff {p : ParamDecl} {v : VarInfo} : paramOf p = v ↔ ParamIs p v := by
  obtain ⟨id, n, w, t⟩ := p
  unfold paramOf
  constructor
  · rintro rfl
    dsimp only
    by_cases h : t = []
    · subst h
      exact .bits ..
    · rw [if_pos h]
      exact .named _ _ _ h
  · intro h
    cases h with
    | bits => rfl
    | named _ _ _ h =>
      dsimp only
      rw [if_pos h]

theorem each_param {ps : List ParamDecl} {vs : List VarInfo} : ps.map paramOf = vs ↔ Each ParamIs ps vs := by
  have := each_map_ok (g := fun p => Res.ok (paramOf p)) (R := ParamIs) (as := ps) (bs := vs) (by
    intro a b
    rw [← paramIs_iff]
    exact ⟨fun h => by injection h, fun h => by rw [h]⟩)
  rw [← this]
  have e : ps.map (fun p => Res.ok (paramOf p)) = (ps.map paramOf).map Res.ok := by
    rw [List.map_map]
    rfl
  rw [e]
  constructor
  · rintro rfl
    rfl
  · intro h
    have hinj : Function.Injective (Res.ok : VarInfo → Res VarInfo) := by
      intro a b h
      injection h
    exact List.map_inj_right hinj |>.1 h

theorem insertVars_nil {vs : List VarInfo} {m : VarMaps} : insertVars ([], []) vs = .ok m ↔
    Distinct vs ∧ m = (vs.reverse.map fun v => (v.id, v), vs.reverse.map fun v => (v.name, v)) := by
  rw [insertVars_ok]
  simp only [List.append_nil]
  constructor
  · rintro ⟨h1, h2, _, h4⟩
    exact ⟨⟨h1, h2⟩, h4⟩
  · rintro ⟨⟨h1, h2⟩, h4⟩
    exact ⟨h1, h2, fun _ _ => ⟨rfl, rfl⟩, h4⟩

theorem maps_of {vs : List VarInfo} (h : Distinct vs) :
    Maps vs (vs.reverse.map fun v => (v.id, v)) (vs.reverse.map fun v => (v.name, v)) := by
  refine ⟨?_, ?_, ?_, ?_⟩
  · rw [List.map_map]
    have : (Prod.fst ∘ fun v : VarInfo => (v.id, v)) = VarInfo.id := rfl
    rw [this, List.map_reverse]
    exact (List.reverse_perm _).nodup_iff.2 h.1
  · rw [List.map_map]
    have : (Prod.fst ∘ fun v : VarInfo => (v.name, v)) = VarInfo.name := rfl
    rw [this, List.map_reverse]
    exact (List.reverse_perm _).nodup_iff.2 h.2
  · intro id v
    simp only [List.mem_map, List.mem_reverse, Prod.mk.injEq]
    constructor
    · rintro ⟨u, hu, h1, rfl⟩
      exact ⟨hu, h1⟩
    · rintro ⟨hu, h1⟩
      exact ⟨v, hu, h1, rfl⟩
  · intro id v
    simp only [List.mem_map, List.mem_reverse, Prod.mk.injEq]
    constructor
    · rintro ⟨u, hu, h1, rfl⟩
      exact ⟨hu, h1⟩
    · rintro ⟨hu, h1⟩
      exact ⟨v, hu, h1, rfl⟩

theorem lookup_maps {vs : List VarInfo} {byId : List (Nat × VarInfo)} {byName : List (Str × VarInfo)}
    (h : Maps vs byId byName) (n : Str) : lookup n byName = vs.find? fun v => v.name = n := by
  cases hl : lookup n byName with
  | some v =>
    obtain ⟨h1, h2⟩ := (h.byName n v).1 (lookup_some_mem hl)
    symm
    cases hf : vs.find? fun v => v.name = n with
    | none =>
      have := List.find?_eq_none.1 hf v h1
      simp [h2] at this
    | some u =>
      have h3 := List.mem_of_find?_eq_some hf
      have h4 : u.name = n := by simpa using List.find?_some hf
      have h5 : (n, u) ∈ byName := (h.byName n u).2 ⟨h3, h4⟩
      have := (lookup_iff_mem h.nodupName).2 h5
      rw [this] at hl
      exact hl
  | none =>
    symm
    rw [List.find?_eq_none]
    intro v hv
    simp only [decide_eq_true_eq]
    intro hn
    have h5 : (n, v) ∈ byName := (h.byName n v).2 ⟨hv, hn⟩
    rw [(lookup_iff_mem h.nodupName).2 h5] at hl
    cases hl

theorem sig_keys {vs : List VarInfo} {byId : List (Nat × VarInfo)} {byName : List (Str × VarInfo)}
    (h : Maps vs byId byName) : sigOf (.table byName) = keySig vs := by
  unfold sigOf keySig
  dsimp only
  congr 1
  funext n
  rw [lookup_maps h]

theorem sig_params {vs : List VarInfo} {byId : List (Nat × VarInfo)} {byName : List (Str × VarInfo)}
    (h : Maps vs byId byName) : sigOf (.action byName) = paramSig vs := by
  unfold sigOf paramSig
  dsimp only
  congr 1
  funext n
  rw [lookup_maps h]

/-! ### Constraints -/

/-- What is stored of a constraint. -/
theorem parseAndCheck_iff {sys : Sys} {k : ConstraintKind} {p : Preamble} {sc : Scope} {o : Option Expr}
    {src : ConstraintSource} : parseAndCheck sys k p sc = .ok (o, src) ↔
      (Attached k p none ∧ o = none ∧ src = {}) ∨
      ∃ e c s, Attached k p (some src) ∧ Constraint sys.inetPton6 k (tokenize src) e ∧ abs e = some s ∧
        inferAndCheck src sc e = .ok c ∧ o = some c := by
  unfold parseAndCheck
  simp only [Res.bind_eq_ok]
  constructor
  · rintro ⟨x, hx, h⟩
    cases x with
    | none =>
      cases h
      exact .inl ⟨attached_iff.1 hx, rfl, rfl⟩
    | some src' =>
      simp only [Res.bind_eq_ok] at h
      obtain ⟨e, he, c, hc, h⟩ := h
      cases h
      obtain ⟨s, hs⟩ := parsed_abs he
      exact .inr ⟨e, c, s, attached_iff.1 hx, (C23_grammar_text ..).1 he, hs, hc, rfl⟩
  · rintro (⟨h, rfl, rfl⟩ | ⟨e, c, s, h, he, hs, hc, rfl⟩)
    · exact ⟨none, attached_iff.2 h, rfl⟩
    · refine ⟨some src, attached_iff.2 h, ?_⟩
      simp only [Res.bind_eq_ok]
      exact ⟨e, (C23_grammar_text ..).2 he, c, hc, rfl⟩

theorem parseAndCheck_read {sys : Sys} {k : ConstraintKind} {p : Preamble} {sc : Scope} :
    (∀ o src, parseAndCheck sys k p sc = .ok (o, src) →
      ∃ r, ReadConstraint sys.inetPton6 k (sigOf sc) p r ∧ Stored r o src) ∧
    ((∃ r, ReadConstraint sys.inetPton6 k (sigOf sc) p r) → ∃ o src, parseAndCheck sys k p sc = .ok (o, src)) := by
  constructor
  · intro o src h
    rcases parseAndCheck_iff.1 h with ⟨h1, rfl, rfl⟩ | ⟨e, c, s, h1, he, hs, hc, rfl⟩
    · exact ⟨_, .none h1, .none⟩
    · have hty := ((C15_accepts_exactly (src := src) (sc := sc) hs).1 c.ty).1 ⟨c, hc, rfl⟩
      exact ⟨_, .some h1 ((C19_lexical_structure _ _).1 rfl) he hs hty,
        .some (C14_only_annotates hc).1 (C14_only_annotates hc).2.1 rfl⟩
  · rintro ⟨r, h⟩
    cases h with
    | none h1 => exact ⟨none, {}, parseAndCheck_iff.2 (.inl ⟨h1, rfl, rfl⟩)⟩
    | some h1 hl he hs ht =>
      rename_i src ts e s t
      obtain ⟨c, hc, _⟩ := ((C15_accepts_exactly (src := src) (sc := sc) hs).1 t).2 ht
      have := (C19_lexical_structure src ts).2 hl
      subst this
      exact ⟨some c, src, parseAndCheck_iff.2 (.inr ⟨e, c, s, h1, he, hs, hc, rfl⟩)⟩

/-! ### Tables and actions -/

theorem parseTableInfo_is {sys : Sys} {d : TableDecl} {ti : TableInfo} (h : parseTableInfo sys d = .ok ti) :
    TableIs sys.inetPton6 d ti := by
  unfold parseTableInfo at h
  simp only [Res.bind_eq_ok] at h
  obtain ⟨⟨a, b⟩, h1, ⟨c, s⟩, h2, h⟩ := h
  cases h
  obtain ⟨vs, h3, h4⟩ := parseKeys_ok.1 h1
  obtain ⟨h5, h6⟩ := insertVars_nil.1 h4
  cases h6
  obtain ⟨r, hr, hs⟩ := parseAndCheck_read.1 _ _ h2
  rw [sig_keys (maps_of h5)] at hr
  exact ⟨rfl, rfl, vs, r, (each_map_ok fun _ _ => keyDecl_iff).1 h3, h5, maps_of h5, hr, hs⟩

theorem parseTableInfo_good {sys : Sys} {d : TableDecl} :
    (∃ ti, parseTableInfo sys d = .ok ti) ↔ GoodTable sys.inetPton6 d := by
  constructor
  · rintro ⟨ti, h⟩
    obtain ⟨_, _, vs, r, h1, h2, _, h3, _⟩ := parseTableInfo_is h
    exact ⟨vs, r, h1, h2, h3⟩
  · rintro ⟨vs, r, h1, h2, h3⟩
    have h4 := parseKeys_ok.2 ⟨vs, (each_map_ok fun _ _ => keyDecl_iff).2 h1, insertVars_nil.2 ⟨h2, rfl⟩⟩
    rw [← sig_keys (maps_of h2)] at h3
    obtain ⟨o, src, h5⟩ := parseAndCheck_read.2 ⟨r, h3⟩
    refine ⟨⟨d.preamble.id, d.preamble.name, o, src, vs.reverse.map fun v => (v.id, v),
      vs.reverse.map fun v => (v.name, v)⟩, ?_⟩
    unfold parseTableInfo
    simp only [Res.bind_eq_ok]
    exact ⟨_, h4, _, h5, rfl⟩

theorem parseActionInfo_is {sys : Sys} {d : ActionDecl} {ai : ActionInfo} (h : parseActionInfo sys d = .ok ai) :
    ActionIs sys.inetPton6 d ai := by
  unfold parseActionInfo at h
  simp only [Res.bind_eq_ok] at h
  obtain ⟨⟨a, b⟩, h1, ⟨c, s⟩, h2, h⟩ := h
  cases h
  rw [parseParamDecls_eq] at h1
  obtain ⟨h5, h6⟩ := insertVars_nil.1 h1
  cases h6
  obtain ⟨r, hr, hs⟩ := parseAndCheck_read.1 _ _ h2
  rw [sig_params (maps_of h5)] at hr
  exact ⟨rfl, rfl, _, r, each_param.1 rfl, h5, maps_of h5, hr, hs⟩

theorem parseActionInfo_good {sys : Sys} {d : ActionDecl} :
    (∃ ai, parseActionInfo sys d = .ok ai) ↔ GoodAction sys.inetPton6 d := by
  constructor
  · rintro ⟨ti, h⟩
    obtain ⟨_, _, vs, r, h1, h2, _, h3, _⟩ := parseActionInfo_is h
    exact ⟨vs, r, h1, h2, h3⟩
  · rintro ⟨vs, r, h1, h2, h3⟩
    have h4 : parseParamDecls ([], []) d.params =
        .ok (vs.reverse.map fun v => (v.id, v), vs.reverse.map fun v => (v.name, v)) := by
      rw [parseParamDecls_eq, each_param.2 h1]
      exact insertVars_nil.2 ⟨h2, rfl⟩
    rw [← sig_params (maps_of h2)] at h3
    obtain ⟨o, src, h5⟩ := parseAndCheck_read.2 ⟨r, h3⟩
    refine ⟨⟨d.preamble.id, d.preamble.name, o, src, vs.reverse.map fun v => (v.id, v),
      vs.reverse.map fun v => (v.name, v)⟩, ?_⟩
    unfold parseActionInfo
    simp only [Res.bind_eq_ok]
    exact ⟨_, h4, _, h5, rfl⟩

/-! ### Programs -/

theorem map_ok_iff {α β : Type} {g : α → Res β} : ∀ {as : List α}, (∃ bs : List β, as.map g = bs.map Res.ok) ↔
    ∀ a ∈ as, ∃ b, g a = .ok b := by
  intro as
  induction as with
  | nil => exact ⟨fun _ => nofun, fun _ => ⟨[], rfl⟩⟩
  | cons a as ih =>
    constructor
    · rintro ⟨bs, h⟩
      cases bs with
      | nil => cases h
      | cons b bs =>
        rw [List.map_cons, List.map_cons] at h
        injection h with h1 h2
        intro x hx
        rcases List.mem_cons.1 hx with rfl | hx
        · exact ⟨b, h1⟩
        · exact ih.1 ⟨bs, h2⟩ x hx
    · intro h
      obtain ⟨b, hb⟩ := h a List.mem_cons_self
      obtain ⟨bs, hbs⟩ := ih.2 fun x hx => h x (List.mem_cons_of_mem _ hx)
      exact ⟨b :: bs, by rw [List.map_cons, List.map_cons, hb, hbs]⟩

theorem p4ToConstraintInfo_succeeds {sys : Sys} {p : P4Info} : (∃ ci, p4ToConstraintInfo sys p = .ok ci) ↔
    (p.tables.map fun t => t.preamble.id).Nodup ∧ (p.actions.map fun a => a.preamble.id).Nodup ∧
    (∀ d ∈ p.tables, GoodTable sys.inetPton6 d) ∧ ∀ d ∈ p.actions, GoodAction sys.inetPton6 d := by
  constructor
  · rintro ⟨ci, h⟩
    obtain ⟨ts, as, h1, h2, h3, h4, _⟩ := p4ToConstraintInfo_ok.1 h
    exact ⟨h3, h4, fun d hd => parseTableInfo_good.1 (map_ok_iff.1 ⟨ts, h1⟩ d hd),
      fun d hd => parseActionInfo_good.1 (map_ok_iff.1 ⟨as, h2⟩ d hd)⟩
  · rintro ⟨h3, h4, h1, h2⟩
    obtain ⟨ts, h1⟩ := map_ok_iff.2 fun d hd => parseTableInfo_good.2 (h1 d hd)
    obtain ⟨as, h2⟩ := map_ok_iff.2 fun d hd => parseActionInfo_good.2 (h2 d hd)
    exact ⟨_, p4ToConstraintInfo_ok.2 ⟨ts, as, h1, h2, h3, h4, rfl⟩⟩

theorem option_ext {α : Type} {a b : Option α} (h : ∀ x, a = some x ↔ b = some x) : a = b := by
  cases a with
  | some x => exact ((h x).1 rfl).symm
  | none =>
    cases b with
    | some x => exact (h x).2 rfl
    | none => rfl

theorem info_perm {sys : Sys} {p p' : P4Info} {ci ci' : ConstraintInfo} (ht : p.tables.Perm p'.tables)
    (ha : p.actions.Perm p'.actions) (h : p4ToConstraintInfo sys p = .ok ci)
    (h' : p4ToConstraintInfo sys p' = .ok ci') :
    (∀ id, lookup id ci.tables = lookup id ci'.tables) ∧ ∀ id, lookup id ci.actions = lookup id ci'.actions := by
  constructor
  · intro id
    refine option_ext fun ti => ?_
    rw [table_of_info h, table_of_info h']
    exact ⟨fun ⟨d, hd, h⟩ => ⟨d, ht.mem_iff.1 hd, h⟩, fun ⟨d, hd, h⟩ => ⟨d, ht.mem_iff.2 hd, h⟩⟩
  · intro id
    refine option_ext fun ti => ?_
    rw [action_of_info h, action_of_info h']
    exact ⟨fun ⟨d, hd, h⟩ => ⟨d, ha.mem_iff.1 hd, h⟩, fun ⟨d, hd, h⟩ => ⟨d, ha.mem_iff.2 hd, h⟩⟩

theorem reason_lookup {ci ci' : ConstraintInfo} (ht : ∀ id, lookup id ci.tables = lookup id ci'.tables)
    (ha : ∀ id, lookup id ci.actions = lookup id ci'.actions) (entry : RtEntry) :
    reasonEntryViolatesConstraint entry ci = reasonEntryViolatesConstraint entry ci' := by
  have h1 : ∀ a, reasonAction a ci = reasonAction a ci' := by
    intro a
    unfold reasonAction getActionInfo
    rw [ha]
  have h2 : ∀ as, reasonActionSet ci as = reasonActionSet ci' as := by
    intro as
    induction as with
    | nil => rfl
    | cons a as ih =>
      unfold reasonActionSet
      rw [h1, ih]
  have h3 : ∀ ta, reasonTableAction ci ta = reasonTableAction ci' ta := by
    intro ta
    unfold reasonTableAction
    cases ta with
    | none => rfl
    | some ta => cases ta <;> first | rfl | exact h1 _ | exact h2 _
  unfold reasonEntryViolatesConstraint getTableInfo
  rw [ht]
  simp only [h3]

/-! ### Verdicts in terms of declarations -/

theorem each_unique {α β : Type} {R : α → β → Prop} (hR : ∀ a b b', R a b → R a b' → b = b') {as : List α} :
    ∀ {bs bs' : List β}, Each R as bs → Each R as bs' → bs = bs' := by
  induction as with
  | nil =>
    intro bs bs' h h'
    cases h
    cases h'
    rfl
  | cons a as ih =>
    intro bs bs' h h'
    cases h with
    | cons h1 h2 =>
      cases h' with
      | cons h1' h2' => rw [hR _ _ _ h1 h1', ih h2 h2']

theorem keyDecl_unique {f : MatchField} {v v' : VarInfo} (h : KeyDecl f v) (h' : KeyDecl f v') : v = v' := by
  have h1 := keyDecl_iff.2 h
  rw [keyDecl_iff.2 h'] at h1
  injection h1 with h1
  exact h1.symm

theorem paramIs_unique {f : ParamDecl} {v v' : VarInfo} (h : ParamIs f v) (h' : ParamIs f v') : v = v' :=
  (paramIs_iff.2 h).symm.trans (paramIs_iff.2 h')

theorem each_mem {α β : Type} {R : α → β → Prop} {as : List α} {bs : List β} (h : Each R as bs) :
    ∀ b ∈ bs, ∃ a ∈ as, R a b := by
  induction h with
  | nil => nofun
  | cons h1 h2 ih =>
    intro b hb
    rcases List.mem_cons.1 hb with rfl | hb
    · exact ⟨_, List.mem_cons_self, h1⟩
    · obtain ⟨a, ha, h⟩ := ih b hb
      exact ⟨a, List.mem_cons_of_mem _ ha, h⟩

theorem keyDecl_nonNeg {f : MatchField} {v : VarInfo} (h : KeyDecl f v) (hw : 0 ≤ f.bitwidth) : NonNeg v.ty := by
  cases h <;> first | exact hw | exact trivial

theorem paramIs_nonNeg {f : ParamDecl} {v : VarInfo} (h : ParamIs f v) (hw : 0 ≤ f.bitwidth) : NonNeg v.ty := by
  cases h <;> first | exact hw | exact trivial

theorem keySig_widths {fs : List MatchField} {vs : List VarInfo} (h : Each KeyDecl fs vs)
    (hw : ∀ f ∈ fs, 0 ≤ f.bitwidth) : WidthsOk (keySig vs) := by
  constructor
  · intro n t ht
    unfold keySig at ht
    dsimp only at ht
    rw [Option.map_eq_some_iff] at ht
    obtain ⟨v, hv, rfl⟩ := ht
    obtain ⟨f, hf, hd⟩ := each_mem h v (List.mem_of_find?_eq_some hv)
    exact keyDecl_nonNeg hd (hw f hf)
  · intro n t ht
    cases ht

theorem paramSig_widths {fs : List ParamDecl} {vs : List VarInfo} (h : Each ParamIs fs vs)
    (hw : ∀ f ∈ fs, 0 ≤ f.bitwidth) : WidthsOk (paramSig vs) := by
  constructor
  · intro n t ht
    cases ht
  · intro n t ht
    unfold paramSig at ht
    dsimp only at ht
    rw [Option.map_eq_some_iff] at ht
    obtain ⟨v, hv, rfl⟩ := ht
    obtain ⟨f, hf, hd⟩ := each_mem h v (List.mem_of_find?_eq_some hv)
    exact paramIs_nonNeg hd (hw f hf)

theorem entryOk_fits {vs : List VarInfo} {ti : TableInfo} {entry : RtEntry} (hm : Maps vs ti.keysById ti.keysByName) :
    EntryOk ti entry ↔ EntryFits vs entry := by
  constructor
  · intro h
    refine ⟨fun m hm' => ?_, h.once, fun ki hk => ?_⟩
    · obtain ⟨ki, h1, h2⟩ := h.known m hm'
      obtain ⟨h3, h4⟩ := (hm.byId _ _).1 h1
      exact ⟨ki, h3, h4, h2⟩
    · exact h.complete ki.id ki ((hm.byId _ _).2 ⟨hk, rfl⟩)
  · intro h
    refine ⟨fun m hm' => ?_, h.once, fun id ki hk => ?_⟩
    · obtain ⟨ki, h1, h2, h3⟩ := h.known m hm'
      exact ⟨ki, (hm.byId _ _).2 ⟨h1, h2⟩, h3⟩
    · obtain ⟨h3, rfl⟩ := (hm.byId _ _).1 hk
      exact h.complete ki h3

theorem entryEnv_means {vs : List VarInfo} {ti : TableInfo} {entry : RtEntry} {ρ : Env}
    (hm : Maps vs ti.keysById ti.keysByName) : EntryEnv ti entry ρ ↔ EntryMeans vs entry ρ := by
  have key : ∀ n v, (∃ ki, (n, ki) ∈ ti.keysByName ∧ KeyValue entry ki v) ↔
      ∃ ki ∈ vs, ki.name = n ∧ KeyValue entry ki v := by
    intro n v
    constructor
    · rintro ⟨ki, h1, h2⟩
      obtain ⟨h3, h4⟩ := (hm.byName _ _).1 h1
      exact ⟨ki, h3, h4, h2⟩
    · rintro ⟨ki, h1, h2, h3⟩
      exact ⟨ki, (hm.byName _ _).2 ⟨h1, h2⟩, h3⟩
  exact ⟨fun h => ⟨fun n v => (h.key n v).trans (key n v), h.param, h.priority⟩,
    fun h => ⟨fun n v => (h.key n v).trans (key n v).symm, h.param, h.priority⟩⟩

theorem actionOk_fits {vs : List VarInfo} {ai : ActionInfo} {a : RtAction}
    (hm : Maps vs ai.paramsById ai.paramsByName) : (ActionOk ai a ∧ ActionComplete ai a) ↔ ActionFits vs a := by
  constructor
  · rintro ⟨h, hc⟩
    refine ⟨fun p hp => ?_, h.once, fun ki hk => hc ki.id ki ((hm.byId _ _).2 ⟨hk, rfl⟩)⟩
    obtain ⟨ki, h1⟩ := h.known p hp
    obtain ⟨h3, h4⟩ := (hm.byId _ _).1 h1
    exact ⟨ki, h3, h4⟩
  · intro h
    refine ⟨⟨fun p hp => ?_, h.once⟩, fun id ki hk => ?_⟩
    · obtain ⟨ki, h1, h2⟩ := h.known p hp
      exact ⟨ki, (hm.byId _ _).2 ⟨h1, h2⟩⟩
    · obtain ⟨h3, rfl⟩ := (hm.byId _ _).1 hk
      exact h.complete ki h3

theorem actionEnv_means {vs : List VarInfo} {ai : ActionInfo} {a : RtAction} {ρ : Env}
    (hm : Maps vs ai.paramsById ai.paramsByName) : ActionEnv ai a ρ ↔ ActionMeans vs a ρ := by
  have key : ∀ n z, (∃ pi v, (n, pi) ∈ ai.paramsByName ∧ (pi.id, v) ∈ a.params ∧ z = (bytesNat v : Int)) ↔
      ∃ pi v, pi ∈ vs ∧ pi.name = n ∧ (pi.id, v) ∈ a.params ∧ z = (bytesNat v : Int) := by
    intro n z
    constructor
    · rintro ⟨ki, v, h1, h2⟩
      obtain ⟨h3, h4⟩ := (hm.byName _ _).1 h1
      exact ⟨ki, v, h3, h4, h2⟩
    · rintro ⟨ki, v, h1, h2, h3⟩
      exact ⟨ki, v, (hm.byName _ _).2 ⟨h1, h2⟩, h3⟩
  exact ⟨fun h => ⟨h.key, fun n v => (h.param n v).trans (key n v), h.priority⟩,
    fun h => ⟨h.key, fun n v => (h.param n v).trans (key n v).symm, h.priority⟩⟩

theorem attached_unique {k : ConstraintKind} {p : Preamble} {o o' : Option ConstraintSource}
    (h : Attached k p o) (h' : Attached k p o') : o = o' := by
  have h1 := attached_iff.2 h
  rw [attached_iff.2 h'] at h1
  injection h1 with h1
  exact h1.symm

/-- A table of an accepted program. -/
theorem table_declared {sys : Sys} {p : P4Info} {ci : ConstraintInfo} (h : p4ToConstraintInfo sys p = .ok ci)
    {d : TableDecl} (hd : d ∈ p.tables) :
    ∃ ti, lookup d.preamble.id ci.tables = some ti ∧ parseTableInfo sys d = .ok ti := by
  obtain ⟨ts, as, h1, h2, h3, h4, _⟩ := p4ToConstraintInfo_ok.1 h
  obtain ⟨ti, hti⟩ := map_ok_iff.1 ⟨ts, h1⟩ d hd
  exact ⟨ti, (table_of_info h).2 ⟨d, hd, rfl, hti⟩, hti⟩

theorem action_declared {sys : Sys} {p : P4Info} {ci : ConstraintInfo} (h : p4ToConstraintInfo sys p = .ok ci)
    {d : ActionDecl} (hd : d ∈ p.actions) :
    ∃ ai, lookup d.preamble.id ci.actions = some ai ∧ parseActionInfo sys d = .ok ai := by
  obtain ⟨ts, as, h1, h2, h3, h4, _⟩ := p4ToConstraintInfo_ok.1 h
  obtain ⟨ai, hai⟩ := map_ok_iff.1 ⟨as, h2⟩ d hd
  exact ⟨ai, (action_of_info h).2 ⟨d, hd, rfl, hai⟩, hai⟩

/-- The parts of a table of an accepted program. -/
theorem parseTableInfo_parts {sys : Sys} {d : TableDecl} {ti : TableInfo} (h : parseTableInfo sys d = .ok ti) :
    ∃ vs, Each KeyDecl d.matchFields vs ∧ Distinct vs ∧ Maps vs ti.keysById ti.keysByName ∧
      parseAndCheck sys .table d.preamble (.table ti.keysByName) = .ok (ti.constraint, ti.source) := by
  unfold parseTableInfo at h
  simp only [Res.bind_eq_ok] at h
  obtain ⟨⟨a, b⟩, h1, ⟨c, s⟩, h2, h⟩ := h
  cases h
  obtain ⟨vs, h3, h4⟩ := parseKeys_ok.1 h1
  obtain ⟨h5, h6⟩ := insertVars_nil.1 h4
  cases h6
  exact ⟨vs, (each_map_ok fun _ _ => keyDecl_iff).1 h3, h5, maps_of h5, h2⟩

theorem parseActionInfo_parts {sys : Sys} {d : ActionDecl} {ai : ActionInfo} (h : parseActionInfo sys d = .ok ai) :
    ∃ vs, Each ParamIs d.params vs ∧ Distinct vs ∧ Maps vs ai.paramsById ai.paramsByName ∧
      parseAndCheck sys .action d.preamble (.action ai.paramsByName) = .ok (ai.constraint, ai.source) := by
  unfold parseActionInfo at h
  simp only [Res.bind_eq_ok] at h
  obtain ⟨⟨a, b⟩, h1, ⟨c, s⟩, h2, h⟩ := h
  cases h
  rw [parseParamDecls_eq] at h1
  obtain ⟨h5, h6⟩ := insertVars_nil.1 h1
  cases h6
  exact ⟨_, each_param.1 rfl, h5, maps_of h5, h2⟩

theorem each_length {α β : Type} {R : α → β → Prop} {as : List α} {bs : List β} (h : Each R as bs) :
    as.length = bs.length := by
  induction h with
  | nil => rfl
  | cons _ _ ih => rw [List.length_cons, List.length_cons, ih]

theorem pairs_length {κ : Type} [DecidableEq κ] {vs : List VarInfo} {m : List (κ × VarInfo)} {g : VarInfo → κ}
    (hv : (vs.map g).Nodup) (hm : (m.map Prod.fst).Nodup) (h : ∀ k v, (k, v) ∈ m ↔ v ∈ vs ∧ g v = k) :
    m.length = vs.length := by
  have h1 : (m.map Prod.fst).Perm (vs.map g) := by
    refine (List.perm_ext_iff_of_nodup hm hv).2 fun k => ?_
    simp only [List.mem_map]
    constructor
    · rintro ⟨⟨k', v⟩, hmem, rfl⟩
      exact ⟨v, (h _ _).1 hmem⟩
    · rintro ⟨v, hvm, rfl⟩
      exact ⟨(g v, v), (h _ _).2 ⟨hvm, rfl⟩, rfl⟩
  have := h1.length_eq
  rwa [List.length_map, List.length_map] at this

theorem maps_length {vs : List VarInfo} {byId : List (Nat × VarInfo)} {byName : List (Str × VarInfo)}
    (h : Maps vs byId byName) (hd : Distinct vs) : byId.length = vs.length :=
  pairs_length hd.1 h.nodupId h.byId

theorem maps_length' {vs : List VarInfo} {byId : List (Nat × VarInfo)} {byName : List (Str × VarInfo)}
    (h : Maps vs byId byName) (hd : Distinct vs) : byName.length = vs.length :=
  pairs_length hd.2 h.nodupName h.byName

end P4C
