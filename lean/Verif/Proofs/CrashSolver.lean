import Verif.Proofs.CrashProgram
import Verif.Proofs.SolveSigned
import Verif.Props.SymFault
import Verif.Spec.CrashSolver
/-!
# When a constraint solver crashes
-/
namespace P4C
open Spec MRes

section
variable {sys : Sys} {n text : Str} {e y : Expr} {Γ : Sig} {nm : Ty → Str → Prop} {act : Bool} {a b : Loc} {m : Str}
  (hp : parseConstraint sys .table ⟨text, { src := .tableName n }⟩ = .ok e) (hf : First Γ e y) (hy : Fault nm act Γ y a b m)
  (src : ConstraintSource)

include hp hf hy in
theorem text_quote_crash : quoteSub src a b = .crash ↔ src.loc.src = .tableName n ∧ Unquotable src a b := by
  obtain ⟨h1, h2, h3, h4, h5, h6⟩ := fault_where hp (Int.le_refl 0) hf hy
  dsimp only at h1 h2 h3
  unfold LocLe at h6
  rw [quoteSub_crash_iff, quote_any_crash_iff h3 h4, h1, h2]
  constructor
  · rintro ⟨g0, _, _, _, num, line, p, g1, g2, g3, ⟨g4, g5⟩ | ⟨g4, g5⟩⟩
    · omega
    · exact ⟨g0.symm, g4, num, line, p, g1, g2, g3, g5⟩
  · rintro ⟨g0, hne, num, line, p, g1, g2, g3, g4⟩
    rw [g0]
    exact ⟨rfl, rfl, nofun, fun h => hne (by rw [h]), num, line, p, g1, g2, g3, .inr ⟨hne, g4⟩⟩

include hp hf hy in
theorem text_quote_ok {q : Str} : quoteSub src a b = .ok q ↔ Quotation src a b q := by
  obtain ⟨h1, h2, h3, h4, h5, h6⟩ := fault_where hp (Int.le_refl 0) hf hy
  exact quoteSub_any_iff h3 h4 h5

end

section
variable {sys : Sys} {d : TableDecl} {ti : TableInfo} (h : parseTableInfo sys d = .ok ti) {vs : List VarInfo}
  (hk : Each KeyDecl d.matchFields vs) (hm : Maps vs ti.keysById ti.keysByName) {skip : Str → Bool}

include h in
/-- The source of the constraint is that of the annotation, if any. -/
theorem source_cases : (∃ src, Attached .table d.preamble (some src) ∧ ti.source = src) ∨
    Attached .table d.preamble none ∧ ti.source = {} := by
  obtain ⟨vs, _, _, _, hp⟩ := parseTableInfo_parts h
  unfold parseAndCheck at hp
  simp only [Res.bind_eq_ok] at hp
  obtain ⟨o, ho, hp⟩ := hp
  cases o with
  | none =>
    injection hp with hp
    exact .inr ⟨attached_iff.1 ho, (congrArg Prod.snd hp).symm⟩
  | some src =>
    simp only [Res.bind_eq_ok] at hp
    obtain ⟨e, _, e', _, hp⟩ := hp
    injection hp with hp
    exact .inl ⟨src, attached_iff.1 ho, (congrArg Prod.snd hp).symm⟩

include hm in
theorem nonNeg_widths (hk : Each KeyDecl d.matchFields vs) (hw : ∀ f ∈ d.matchFields, 0 ≤ f.bitwidth) : NonNegWidths ti := by
  intro n ki w hki hwd
  obtain ⟨hv, -⟩ := (hm.byName n ki).1 hki
  obtain ⟨f, hf, hd⟩ := each_mem hk ki hv
  have := hw f hf
  cases hd <;> cases hwd <;> exact this

include hm in
theorem converts_iff {s : SExpr} : Bitless (sigOf (.table ti.keysByName)) (Represented ti (fun n => .ok (skip n)))
    (RepresentedAttr ti) s ↔ ConvertsToNothing vs skip s := by
  have hK : ∀ n, Represented ti (fun n => .ok (skip n)) n ↔ ∃ ki ∈ vs, ki.name = n ∧ skip n = false := by
    intro n
    constructor
    · rintro ⟨ki, h1, h2⟩
      obtain ⟨h3, rfl⟩ := (hm.byName n ki).1 h1
      exact ⟨ki, h3, rfl, by simpa using h2⟩
    · rintro ⟨ki, h1, h2, h3⟩
      exact ⟨ki, (hm.byName n ki).2 ⟨h1, h2⟩, by simp [h3]⟩
  have hA : ∀ n, RepresentedAttr ti n ↔ n = c!"priority" ∧ WithPriority vs := by
    intro n
    rw [RepresentedAttr, hasPriority_iff hm]
  rw [sig_keys hm]
  exact ⟨bitless_congr hK hA, bitless_congr (fun n => (hK n).symm) fun n => (hA n).symm⟩

include h in
theorem textFault_iff {text : Str} {a b : Loc} {m : Str} : TextFault sys.inetPton6 d text a b m ↔
    ∃ e y, parseConstraint sys .table ⟨text, { src := .tableName ti.name }⟩ = .ok e ∧
      First (sigOf (.table ti.keysByName)) e y ∧ Fault PrintedName false (sigOf (.table ti.keysByName)) y a b m := by
  obtain ⟨vs, hk, _, hm, _⟩ := parseTableInfo_parts h
  rw [(parseTableInfo_id h).2, sig_keys hm]
  constructor
  · rintro ⟨vs', ts, e, y, h1, h2, h3, h4, h5⟩
    cases keys_same hk h1
    refine ⟨e, y, parseConstraint_iff.2 ?_, h4, h5⟩
    obtain rfl := (C19_lexical_structure ⟨text, { src := .tableName d.preamble.name }⟩ _).2 h2
    exact h3
  · rintro ⟨e, y, h1, h2, h3⟩
    exact ⟨vs, _, e, y, hk, tokenize_lexed ⟨text, { src := .tableName d.preamble.name }⟩, parseConstraint_iff.1 h1, h2, h3⟩

end

section
variable {sys : Sys} {d : TableDecl} {ti : TableInfo} (h : parseTableInfo sys d = .ok ti)
  (hw : ∀ f ∈ d.matchFields, 0 ≤ f.bitwidth) {skip : Str → Bool} {z : Z3Oracle} (hz : z.Sound) (hdec : Z3Oracle.Decides z)
  (x : SymTexts) {s : Solver} {texts : List Str} (hr : SolverRun z sys ti skip s texts) {text : Str}

include h hr in
/-- What is said about a text with a type error. -/
theorem text_fault {a b : Loc} {m : Str} (hf : TextFault sys.inetPton6 d text a b m) :
    (s.addConstraintStrM z x sys text).1 = typeErrorM x.toTexts m ti.source a b := by
  obtain ⟨ds, hre, _⟩ := run_reachable hr
  obtain ⟨ks, as, hi⟩ := reachable_inv hre
  obtain ⟨e, y, h1, h2, h3⟩ := (textFault_iff h).1 hf
  obtain ⟨se, ha⟩ := parsed_abs h1
  have hp : parseConstraintM x.toTexts sys .table ⟨text, { src := .tableName ti.name }⟩ = .ok e := by
    rw [← erase_parseConstraint x.toTexts] at h1
    cases h4 : parseConstraintM x.toTexts sys .table ⟨text, { src := .tableName ti.name }⟩ <;> rw [h4] at h1 <;>
      cases h1
    rfl
  unfold Solver.addConstraintStrM
  rw [hi.table]
  dsimp only
  rw [hp, MRes.ok_bind, blame_fault (sc := .table ti.keysByName) ha h2 h3]
  unfold typeErrorM quotingErrorM
  cases quoteSub ti.source a b <;> rfl

include h in
theorem misquoted_iff {a b : Loc} {m : Str} (hf : TextFault sys.inetPton6 d text a b m) :
    quoteSub ti.source a b = .crash ↔
      ∃ src, Attached .table d.preamble (some src) ∧ src.loc.src = .tableName d.preamble.name ∧ Unquotable src a b := by
  obtain ⟨e, y, h1, h2, h3⟩ := (textFault_iff h).1 hf
  rw [text_quote_crash h1 h2 h3, (parseTableInfo_id h).2]
  rcases source_cases h with ⟨src, g1, g2⟩ | ⟨g1, g2⟩
  · rw [g2]
    constructor
    · exact fun ⟨g3, g4⟩ => ⟨src, g1, g3, g4⟩
    · rintro ⟨src', g3, g4, g5⟩
      cases attached_unique g1 g3
      exact ⟨g4, g5⟩
  · rw [g2]
    constructor
    · rintro ⟨g3, _⟩
      cases g3
    · rintro ⟨src', g3, _⟩
      cases attached_unique g1 g3

include h hw hz hdec hr in
/-- The three outcomes of adding a text. -/
theorem text_outcomes :
    ((∃ b, (s.addConstraintStrM z x sys text).1 = .ok b) ∨ ∃ c m, (s.addConstraintStrM z x sys text).1 = .err c m) ∧
      ¬ (BitlessText sys.inetPton6 d skip text ∨ MisquotedText sys.inetPton6 d text) ∨
    (s.addConstraintStrM z x sys text).1 = .crash ∧
      (BitlessText sys.inetPton6 d skip text ∨ MisquotedText sys.inetPton6 d text) := by
  have hwf := parseTableInfo_wf h
  obtain ⟨vs, hk, _, hm, _⟩ := parseTableInfo_parts h
  obtain ⟨ds, hre, _⟩ := run_reachable hr
  obtain ⟨ks, as, hi⟩ := reachable_inv hre
  have hnn := nonNeg_widths hm hk hw
  have hbit : ∀ {t : SExpr}, BitlessText sys.inetPton6 d skip text → TextSays sys.inetPton6 d text t →
      ConvertsToNothing vs skip t := by
    rintro t ⟨vs', t', h1, h2, h3⟩ ht
    cases keys_same hk h1
    obtain ⟨e, c, g1, g2, g3, g4⟩ := (textSays_iff h hk hm).1 h2
    obtain ⟨e', c', g1', g2', g3', g4'⟩ := (textSays_iff h hk hm).1 ht
    rw [g1] at g1'; cases g1'
    rw [g4] at g4'; cases g4'
    exact h3
  rcases C43_no_crash (sys := sys) (k := .table) (src := ⟨text, { src := .tableName ti.name }⟩) (Int.le_refl 0) with
    ⟨e, he⟩ | he
  · obtain ⟨se, ha⟩ := parsed_abs he
    rcases blame (x := x.toTexts) (src := ti.source) (sc := .table ti.keysByName) ha with
      ⟨c, hc, ⟨se', ha', ht⟩, _⟩ | ⟨y, a, b, m, hf, hy, _⟩
    · rw [ha] at ha'
      cases ha'
      have hno : ¬ MisquotedText sys.inetPton6 d text := by
        rintro ⟨a, b, m, _, hf, _⟩
        obtain ⟨e', y, g1, g2, g3⟩ := (textFault_iff h).1 hf
        rw [he] at g1; cases g1
        obtain ⟨u, hu⟩ := typed_part g2 ⟨se, ha, ht⟩
        exact fault_untyped g3 hu
      obtain ⟨e', hch, hty, hA, hB, hC⟩ := C71_text_partial (skip := fun n => .ok (skip n)) x hre hz hdec hwf hnn
        (parseConstraint_iff.1 he) ha ht
      have hcr : SolverCrash ti (fun n => .ok (skip n)) e' se ↔ BitlessText sys.inetPton6 d skip text := by
        unfold SolverCrash
        rw [converts_iff hm, hty]
        constructor
        · rintro ⟨g1, g2⟩
          refine ⟨vs, se, hk, (textSays_iff h hk hm).2 ?_, g2⟩
          rw [g1] at ht
          obtain ⟨c', g3, g4⟩ := infer_complete (src := ti.source) ha ht
          exact ⟨e, c', he, g3, g4, ha⟩
        · intro g
          obtain ⟨vs', t', h1, h2, h3⟩ := g
          obtain ⟨e1, c1, g1, g2, g3, g4⟩ := (textSays_iff h hk hm).1 h2
          rw [he] at g1; cases g1
          rw [ha] at g4; cases g4
          rw [← erase_inferAndCheck x.toTexts, hc] at g2
          cases g2
          exact ⟨g3, hbit ⟨vs', se, h1, h2, h3⟩ h2⟩
      rw [hcr] at hB hC
      cases hres : (s.addConstraintStrM z x sys text).1 with
      | ok b =>
        refine .inl ⟨.inl ⟨b, rfl⟩, ?_⟩
        have := hC.1 ⟨b, hres⟩
        exact fun g => g.elim this.2 hno
      | err c m =>
        refine .inl ⟨.inr ⟨c, m, rfl⟩, fun g => ?_⟩
        have := hB.2 (g.resolve_right hno)
        rw [hres] at this
        cases this
      | crash => exact .inr ⟨rfl, .inl (hB.1 hres)⟩
      | oof =>
        exfalso
        by_cases g : BitlessText sys.inetPton6 d skip text
        · have := hB.2 g
          rw [hres] at this
          cases this
        · have : ∃ b, (s.addConstraintStrM z x sys text).1 = .ok b := by
            refine hC.2 ⟨fun c m hf => ?_, g⟩
            have := (hA c m).2 hf
            rw [hres] at this
            cases this
          rw [hres] at this
          obtain ⟨_, this⟩ := this
          cases this
    · have htf : TextFault sys.inetPton6 d text a b m := (textFault_iff h).2 ⟨e, y, he, hf, hy⟩
      have hres := text_fault h x hr htf
      have hno : ¬ BitlessText sys.inetPton6 d skip text := by
        rintro ⟨vs', t', h1, h2, h3⟩
        obtain ⟨e1, c1, g1, g2, g3, g4⟩ := (textSays_iff h hk hm).1 h2
        rw [he] at g1; cases g1
        rw [← erase_inferAndCheck x.toTexts, blame_fault (sc := .table ti.keysByName) ha hf hy] at g2
        unfold typeErrorM quotingErrorM at g2
        cases hq : quoteSub ti.source a b <;> rw [hq] at g2 <;> cases g2
      have hmis : MisquotedText sys.inetPton6 d text ↔ quoteSub ti.source a b = .crash := by
        constructor
        · rintro ⟨a', b', m', src, hf', g⟩
          obtain ⟨e1, y1, g1, g2, g3⟩ := (textFault_iff h).1 hf'
          rw [he] at g1; cases g1
          obtain ⟨rfl, rfl, rfl, rfl⟩ := (C54_unique (sc := .table ti.keysByName) hf hy).1 g2 g3
          exact (misquoted_iff h htf).2 ⟨src, g⟩
        · intro hq
          obtain ⟨src, g⟩ := (misquoted_iff h htf).1 hq
          exact ⟨a, b, m, src, htf, g⟩
      rw [hres, typeErrorM, quotingErrorM]
      rcases quoteSub_total ti.source a b with ⟨q, hq⟩ | hq | hq
      · rw [hmis, hq]
        exact .inl ⟨.inr ⟨_, _, rfl⟩, fun g => g.elim hno nofun⟩
      · rw [hmis, hq]
        exact .inl ⟨.inr ⟨_, _, rfl⟩, fun g => g.elim hno nofun⟩
      · rw [hmis, hq]
        exact .inr ⟨rfl, .inr rfl⟩
  · have hn : ¬ ∃ e, parseConstraint sys .table ⟨text, { src := .tableName ti.name }⟩ = .ok e := by
      rintro ⟨e, h1⟩
      rcases he with he | he <;> rw [he] at h1 <;> cases h1
    refine .inl ⟨.inr ?_, ?_⟩
    · have hp := erase_parseConstraint x.toTexts sys .table ⟨text, { src := .tableName ti.name }⟩
      unfold Solver.addConstraintStrM
      rw [hi.table]
      dsimp only
      cases hq : parseConstraintM x.toTexts sys .table ⟨text, { src := .tableName ti.name }⟩ with
      | err c m => exact ⟨c, m, rfl⟩
      | _ =>
        rw [hq] at hp
        rcases he with he | he <;> rw [he] at hp <;> cases hp
    · rintro (⟨vs', t', h1, h2, h3⟩ | ⟨a, b, m, src, hf, _⟩)
      · obtain ⟨e1, c1, g1, _⟩ := (textSays_iff h hk hm).1 h2
        exact hn ⟨_, g1⟩
      · obtain ⟨e1, y1, g1, _⟩ := (textFault_iff h).1 hf
        exact hn ⟨_, g1⟩

end

section
variable {sys : Sys} {d : TableDecl} {ti : TableInfo} (h : parseTableInfo sys d = .ok ti)
  (hw : ∀ f ∈ d.matchFields, 0 ≤ f.bitwidth) {skip : Str → Bool} (hs : Solvable d skip) {z : Z3Oracle} (hz : z.Sound)
  (hdec : Z3Oracle.Decides z) (x : SymTexts)

include h in
theorem fine_iff : (∀ n ki, (n, ki) ∈ ti.keysByName → KeyFine (fun n => .ok (skip n)) n ki) ↔ AllSupported d skip := by
  obtain ⟨vs, hk, _, hm, _⟩ := parseTableInfo_parts h
  constructor
  · intro hf vs' hk' ki hki
    cases keys_same hk hk'
    rcases hf ki.name ki ((hm.byName _ ki).2 ⟨hki, rfl⟩) with h1 | ⟨_, h1⟩
    · exact .inl (by simpa using h1)
    · exact .inr h1
  · intro ha n ki hki
    obtain ⟨h1, rfl⟩ := (hm.byName n ki).1 hki
    cases h2 : skip ki.name with
    | true => exact .inl (by simp [h2])
    | false =>
      refine .inr ⟨by simp [h2], (ha vs hk ki h1).resolve_left ?_⟩
      rw [h2]
      nofun

include h in
theorem createCrash_iff : CreateCrash ti (fun n => .ok (skip n)) ↔ AllSupported d skip ∧
    ∃ vs se, Each KeyDecl d.matchFields vs ∧ TableSays sys.inetPton6 d se ∧ ConvertsToNothing vs skip se := by
  unfold CreateCrash
  rw [fine_iff h]
  refine and_congr_right fun _ => ?_
  constructor
  · rintro ⟨e, s, h1, h2, h3, h4⟩
    obtain ⟨vs, e0, s0, r⟩ := table_read h h1
    rw [converts_iff r.maps] at h4
    cases checked_unique h2 ⟨_, e0, r.typed, r.meant⟩
    have := r.read
    rw [h3] at this
    exact ⟨vs, s, r.keys, ⟨vs, _, _, r.keys, this⟩, h4⟩
  · rintro ⟨vs, se, hk, ⟨vs', src, e, hk', hread⟩, hcn⟩
    cases keys_same hk hk'
    cases hct : ti.constraint with
    | none =>
      obtain ⟨_, _, _, _, h4⟩ := parseTableInfo_parts h
      rw [hct] at h4
      cases hread with | some ha => cases attached_unique ha (parseAndCheck_none h4)
    | some c =>
      obtain ⟨vs', e', se', r⟩ := table_read h hct
      cases keys_same hk r.keys
      have hu := readConstraint_unique r.read hread
      simp only [Option.some.injEq, Prod.mk.injEq] at hu
      obtain ⟨rfl, rfl, rfl, hty⟩ := hu
      exact ⟨c, _, rfl, ⟨_, e', r.typed, r.meant⟩, hty, (converts_iff r.maps).2 hcn⟩

include h hw hs hz hdec in
theorem create_outcomes :
    ((∃ s, Solver.createM z x ti (fun n => .ok (skip n)) = .ok s) ∨
      ∃ c m, Solver.createM z x ti (fun n => .ok (skip n)) = .err c m) ∧ ¬ CreateCrash ti (fun n => .ok (skip n)) ∨
    Solver.createM z x ti (fun n => .ok (skip n)) = .crash ∧ CreateCrash ti (fun n => .ok (skip n)) := by
  obtain ⟨vs, hk, _, hm, _⟩ := parseTableInfo_parts h
  have ho : Omittable ti fun n => (.ok (skip n) : MRes Bool) = .ok true := by
    intro n ki h1 h2
    exact solvable_omittable hk hm hs n ki h1 (by simpa using h2)
  rcases create_faults (z := z) (skip := fun n => .ok (skip n)) x hz hdec (parseTableInfo_wf h)
      (solvable_names hk hm hs) ho (solvable_widths hk hm hs) (fun n => .inl ⟨_, rfl⟩) (nonNeg_widths hm hk hw) (by
        intro e he
        obtain ⟨_, e0, s0, r⟩ := table_read h he
        exact ⟨s0, _, e0, r.typed, r.meant⟩) with ⟨c, m, h1, _, h3⟩ | ⟨h1, _, h3⟩ | ⟨⟨s, h1⟩, _, h3⟩
  · exact .inl ⟨.inr ⟨c, m, h1⟩, h3⟩
  · exact .inr ⟨h1, h3⟩
  · exact .inl ⟨.inl ⟨s, h1⟩, h3⟩

/-- Positions of texts without line breaks. -/
theorem textFault_oneLine {pton : Str → Option Bytes} {d : TableDecl} {text : Str} (hn : '\n' ∉ text ∧ '\r' ∉ text) {a b : Loc}
    {m : Str} (hf : TextFault pton d text a b m) : a.line = b.line := by
  obtain ⟨vs, ts, e, y, _, hl, hc, hf, hy⟩ := hf
  obtain rfl := (C19_lexical_structure ⟨text, { src := .tableName d.preamble.name }⟩ _).2 hl
  have hp := (C23_grammar_text ⟨pton⟩ ..).2 hc
  obtain ⟨u, v, h1, h2, rfl, rfl, _⟩ := fault_nodes (act := false) hy
  rw [(node_onLine hp hn (first_node hf h1)).1, (node_onLine hp hn (first_node hf h2)).2]

end

theorem noBits_positive {vs : List VarInfo} (hp : ∀ ki ∈ vs, ¬ HasWidth ki.ty 0) {l r : SExpr} :
    ¬ NoBits (keySig vs) l r := by
  rintro ⟨_, t, ht, hw⟩
  have hB : ∀ {n t}, (keySig vs).key n = some t → ¬ HasWidth t 0 := by
    intro n t hk
    obtain ⟨v, hv, rfl⟩ := Option.map_eq_some_iff.1 hk
    exact hp v (List.mem_of_find?_eq_some hv)
  cases ht with
  | key hk _ => exact hB hk hw
  | param hk _ => cases hk
  | field h1 hf =>
    rcases hasTy_composite h1 hf with ⟨n, rfl⟩ | ⟨n, rfl⟩
    · cases h1 with
      | key hk _ =>
        have := hB hk
        cases hf <;> cases hw <;> exact this (by constructor)
    · cases h1 with
      | param hk _ => cases hk
  | _ => cases hw

theorem bitless_positive {vs : List VarInfo} (hp : ∀ ki ∈ vs, ¬ HasWidth ki.ty 0) {K A : Str → Prop} {s : SExpr} :
    ¬ Bitless (keySig vs) K A s := by
  intro h
  induction h with
  | not _ ih | connLeft _ ih | connRight _ _ ih | cmpLeft _ ih | cmpRight _ _ ih => exact ih
  | cmp _ hb => exact noBits_positive hp hb

/-- What happens when a text is added does not depend on Z3 unless the text is a constraint with a type. -/
theorem text_untyped {sys : Sys} {ti : TableInfo} {skip : Str → Bool} {z : Z3Oracle} {s : Solver} {texts : List Str}
    (x : SymTexts) (hr : SolverRun z sys ti skip s texts) {text : Str} {r : MRes Expr}
    (h : (parseConstraintM x.toTexts sys .table ⟨text, { src := .tableName ti.name }⟩ >>= fun e =>
      inferAndCheckM x.toTexts ti.source (.table ti.keysByName) e) = r) :
    (r = .crash → (s.addConstraintStrM z x sys text).1 = .crash) ∧
      ∀ c m, r = .err c m → (s.addConstraintStrM z x sys text).1 = .err c m := by
  obtain ⟨ds, hre, _⟩ := run_reachable hr
  obtain ⟨ks, as, hi⟩ := reachable_inv hre
  unfold Solver.addConstraintStrM
  rw [hi.table]
  dsimp only
  rw [h]
  exact ⟨fun h => by rw [h], fun c m h => by rw [h]⟩

end P4C
