import Verif.Proofs.Debug2

/-
Lemmas for C103: programs.
-/

namespace P4C

open Spec

/-! ### Texts of constraints -/

theorem runes_split : ∀ {a b : Str} {c : Char}, c.toNat < 0x80 → Runes (a ++ c :: b) → Runes a ∧ Runes b
  | [], b, c, hc, h => by
    obtain ⟨r, t, he, hr, ht⟩ := Runes.split_rune h (by simp)
    have hu := Rune.unique (Rune.ascii hc) hr (u := b) (v := t) (by simpa using he)
    rw [hu.2]
    exact ⟨.nil, ht⟩
  | x :: a, b, c, hc, h => by
    obtain ⟨r, t, he, hr, ht⟩ := Runes.split_rune h (by simp)
    have key : ∃ a', x :: a = r ++ a' ∧ t = a' ++ c :: b := by
      rcases List.append_eq_append_iff.1 he with ⟨u, h1, h2⟩ | ⟨u, h1, h2⟩
      · cases u with
        | nil => exact ⟨[], by simpa using h1.symm, by simpa using h2.symm⟩
        | cons d u =>
          simp only [List.cons_append, List.cons.injEq] at h2
          obtain ⟨rfl, h2⟩ := h2
          exfalso
          rcases Rune.cases' hr with ⟨d, hd, _⟩ | h80
          · have h3 := congrArg List.length (h1.symm.trans hd)
            simp at h3
          · have := h80 c (by rw [h1]; simp)
            omega
      · exact ⟨u, h1, h2⟩
    obtain ⟨a', h1, h2⟩ := key
    have hlt : a'.length < (x :: a).length := by
      have := Rune.length_pos hr
      rw [h1, List.length_append]; omega
    subst h2
    have ih := runes_split hc ht
    rw [h1]
    exact ⟨.cons hr ih.1, ih.2⟩
  termination_by a => a.length

theorem runes_ascii_append {a b : Str} (ha : ∀ c ∈ a, c.toNat < 0x80) (h : Runes (a ++ b)) : Runes b := by
  induction a with
  | nil => exact h
  | cons c a ih =>
    exact ih (fun d hd => ha d (by simp [hd])) (runes_split (a := []) (ha c (by simp)) h).2

theorem runes_cstr {s : Str} (h : Runes s) : Runes (cstr s) := by
  have he : s = cstr s ++ s.dropWhile (· ≠ '\x00') := List.takeWhile_append_dropWhile.symm
  cases hd : s.dropWhile (· ≠ '\x00') with
  | nil => rw [hd, List.append_nil] at he; rw [← he]; exact h
  | cons c t =>
    have hc : c = '\x00' := by
      have hn : s.dropWhile (· ≠ '\x00') ≠ [] := by rw [hd]; simp
      have h1 := List.head_dropWhile_not (fun c : Char => decide (c ≠ '\x00')) hn
      have h2 : (s.dropWhile (· ≠ '\x00')).head hn = c := by simp only [hd, List.head_cons]
      rw [h2] at h1
      simpa using h1
    rw [he, hd, hc] at h
    exact (runes_split (by decide) h).1

theorem runes_replaceQuotes : ∀ {s : Str}, Runes s → Runes (replaceQuotes s)
  | s, h => by
    by_cases hs : s = []
    · subst hs; exact .nil
    obtain ⟨r, t, he, hr, ht⟩ := Runes.split_rune h hs
    have hlt : t.length < s.length := by
      have := Rune.length_pos hr
      rw [he, List.length_append]; omega
    by_cases hq : '"' ∈ r
    · have hr1 : r = ['"'] := by
        rcases Rune.cases' hr with ⟨d, rfl, _⟩ | h80
        · simp at hq; rw [← hq]
        · exact absurd (h80 _ hq) (by decide)
      subst hr1
      subst he
      show Runes (replaceQuotes ('"' :: t))
      by_cases h2 : ∃ u, t = ' ' :: '"' :: u
      · obtain ⟨u, rfl⟩ := h2
        have hu : Runes u := runes_ascii_append (a := c!" \"") (by decide) ht
        show Runes ('\n' :: replaceQuotes u)
        exact .cons (r := ['\n']) (.ascii (by decide)) (runes_replaceQuotes hu)
      · have : replaceQuotes ('"' :: t) = '"' :: replaceQuotes t := by
          rw [replaceQuotes]
          intro u _ hu
          exact h2 ⟨u, hu⟩
        rw [this]
        exact .cons (r := ['"']) (.ascii (by decide)) (runes_replaceQuotes ht)
    · rw [he, replaceQuotes_part hq]
      exact .cons hr (runes_replaceQuotes ht)
  termination_by s => s.length
  decreasing_by all_goals simp_all; try omega

theorem annLoop_runes {k : ConstraintKind} : ∀ {as : List Str} {st : AnnState}, (∀ a ∈ as, Runes a) →
    Runes (annLoop k st as).2
  | [], _, _ => .nil
  | a :: as, st, h => by
    unfold annLoop
    have ih : ∀ st, Runes (annLoop k st as).2 := fun st => annLoop_runes fun b hb => h b (by simp [hb])
    split
    · exact ih _
    split
    · exact ih _
    split
    · rename_i x hx
      exact runes_cstr (first_runes (h a (by simp)) hx)
    · exact ih _

theorem extract_runes {k : ConstraintKind} {p : Preamble} {src : ConstraintSource} (h : ∀ a ∈ p.annotations, Runes a)
    (he : extractConstraint k p = .ok (some src)) : Runes src.str := by
  unfold extractConstraint at he
  have hr : Runes (annLoop k {} p.annotations).2 := annLoop_runes h
  revert he hr
  generalize annLoop k {} p.annotations = x
  obtain ⟨st, s⟩ := x
  intro he hr
  simp only at he hr
  split at he
  · cases he
  split at he
  · cases he
  rename_i t ht
  rw [Option.bind_eq_some_iff] at ht
  obtain ⟨u, h1, h2⟩ := ht
  rw [consumePrefix_iff] at h1
  rw [consumeSuffix_iff] at h2
  subst h1
  subst h2
  split at he
  · cases he
  · cases he
    exact runes_replaceQuotes (runes_split (a := t) (c := '"') (b := [')']) (by decide)
      (runes_ascii_append (a := c!"(\"") (by decide) hr)).1

/-! ### Widths -/

theorem insertVar_sized {v : VarInfo} {x y : VarMaps} (hv : WidthNotMinusOne v.ty)
    (hx : ∀ z ∈ x.2, WidthNotMinusOne z.2.ty) (h : insertVar v x = .ok y) : ∀ z ∈ y.2, WidthNotMinusOne z.2.ty := by
  unfold insertVar at h
  split at h
  · cases h
  split at h
  · cases h
  rename_i hn
  cases h
  unfold insertNew at hn
  split at hn
  · cases hn
  · cases hn
    intro z hz
    simp only [List.mem_cons] at hz
    rcases hz with rfl | hz
    · exact hv
    · exact hx z hz

theorem parseKeys_sized {fs : List MatchField} {x y : VarMaps} (hf : ∀ f ∈ fs, f.bitwidth ≠ -1)
    (hx : ∀ z ∈ x.2, WidthNotMinusOne z.2.ty) (h : parseKeys x fs = .ok y) : ∀ z ∈ y.2, WidthNotMinusOne z.2.ty := by
  induction fs generalizing x with
  | nil => cases h; exact hx
  | cons f fs ih =>
    simp only [parseKeys, Res.bind_eq_ok] at h
    obtain ⟨t, ht, w, hw, h⟩ := h
    refine ih (fun g hg => hf g (by simp [hg])) (insertVar_sized ?_ hx hw) h
    have hb := hf f (by simp)
    unfold parseKeyType at ht
    split at ht <;> cases ht <;> simp [WidthNotMinusOne, hb]

theorem parseParams_sized {fs : List ParamDecl} {x y : VarMaps} (hf : ∀ f ∈ fs, f.bitwidth ≠ -1)
    (hx : ∀ z ∈ x.2, WidthNotMinusOne z.2.ty) (h : parseParamDecls x fs = .ok y) : ∀ z ∈ y.2, WidthNotMinusOne z.2.ty := by
  induction fs generalizing x with
  | nil => cases h; exact hx
  | cons f fs ih =>
    simp only [parseParamDecls, Res.bind_eq_ok] at h
    obtain ⟨t, ht, w, hw, h⟩ := h
    refine ih (fun g hg => hf g (by simp [hg])) (insertVar_sized ?_ hx hw) h
    have hb := hf f (by simp)
    unfold parseParamType at ht
    split at ht <;> cases ht <;> simp [WidthNotMinusOne, hb]

/-! ### Definitions -/

theorem parseAndCheckD_dbg (m : Checks) (sys : Sys) (k : ConstraintKind) (p : Preamble) (sc : Scope) :
    Dbg m ((∀ a ∈ p.annotations, Runes a) ∧ ScopeSized sc) (parseAndCheckD m sys k p sc) (parseAndCheck sys k p sc) := by
  refine Dbg.bind (.refl _) fun source hs => ?_
  cases source with
  | none => exact .refl _
  | some src =>
    exact Dbg.bind ((parseConstraintD_dbg m sys k src).mono fun h => extract_runes h.1 hs) fun e _ =>
      Dbg.bind ((inferD_dbg m src sc e).mono fun h => h.2) fun _ _ => .refl _

theorem parseTableInfoD_dbg (m : Checks) (sys : Sys) (t : TableDecl) :
    Dbg m ((∀ a ∈ t.preamble.annotations, Runes a) ∧ ∀ f ∈ t.matchFields, f.bitwidth ≠ -1)
      (parseTableInfoD m sys t) (parseTableInfo sys t) := by
  refine Dbg.bind (.refl _) fun x hx => ?_
  refine Dbg.bind ((parseAndCheckD_dbg m sys .table t.preamble (.table x.2)).mono fun h => ⟨h.1, ?_⟩) fun _ _ => .refl _
  exact parseKeys_sized h.2 (by simp) hx

theorem parseActionInfoD_dbg (m : Checks) (sys : Sys) (a : ActionDecl) :
    Dbg m ((∀ x ∈ a.preamble.annotations, Runes x) ∧ ∀ q ∈ a.params, q.bitwidth ≠ -1)
      (parseActionInfoD m sys a) (parseActionInfo sys a) := by
  refine Dbg.bind (.refl _) fun x hx => ?_
  refine Dbg.bind ((parseAndCheckD_dbg m sys .action a.preamble (.action x.2)).mono fun h => ⟨h.1, ?_⟩) fun _ _ => .refl _
  exact parseParams_sized h.2 (by simp) hx

theorem collectD_dbg {δ ι : Type} {m : Checks} {P : Prop} {pd pr : δ → Res ι} {id : δ → Nat} {ds : List δ}
    (h : ∀ d ∈ ds, Dbg m P (pd d) (pr d)) : ∀ acc, Dbg m P (collect pd id acc ds) (collect pr id acc ds) := by
  induction ds with
  | nil => intro acc; exact .refl _
  | cons d ds ih =>
    intro acc
    have ih' := ih fun x hx => h x (by simp [hx])
    unfold collect
    rcases h d (by simp) with he | ⟨hp, he⟩
    · rw [he]
      cases pr d with
      | ok i =>
        simp only
        split
        · exact ih' _
        · exact ih' _
      | err c => exact ih' _
      | crash => exact .refl _
      | oof => exact .refl _
    · rw [he]; exact .inr ⟨hp, rfl⟩

theorem programD_dbg (m : Checks) (sys : Sys) (p : P4Info) :
    Dbg m (Encoded p ∧ NoneOfWidthMinusOne p) (p4ToConstraintInfoD m sys p) (p4ToConstraintInfo sys p) := by
  refine Dbg.bind (collectD_dbg (fun t ht => (parseTableInfoD_dbg m sys t).mono fun h =>
    ⟨h.1.tables t ht, h.2.keys t ht⟩) _) fun x _ => ?_
  exact Dbg.bind (collectD_dbg (fun a ha => (parseActionInfoD_dbg m sys a).mono fun h =>
    ⟨h.1.actions a ha, h.2.params a ha⟩) _) fun _ _ => .refl _

theorem collect_from {δ ι : Type} {parse : δ → Res ι} {id : δ → Nat} {ds : List δ} {acc out : List (Nat × ι) × Bool}
    (h : collect parse id acc ds = .ok out) : ∀ x ∈ out.1, x ∈ acc.1 ∨ ∃ d ∈ ds, parse d = .ok x.2 := by
  induction ds generalizing acc with
  | nil => cases h; exact fun x hx => .inl hx
  | cons d ds ih =>
    intro x hx
    unfold collect at h
    have lift : ∀ {l : List (Nat × ι)}, (x ∈ l ∨ ∃ d ∈ ds, parse d = .ok x.2) → (x ∈ l ∨ ∃ e ∈ d :: ds, parse e = .ok x.2) :=
      fun h => h.imp (fun h => h) (fun ⟨e, he, h⟩ => ⟨e, by simp [he], h⟩)
    cases hp : parse d with
    | ok i =>
      rw [hp] at h
      simp only at h
      cases hn : insertNew (id d) i acc.1 with
      | none => rw [hn] at h; exact lift (ih h x hx)
      | some acc' =>
        rw [hn] at h
        rcases ih h x hx with h1 | ⟨e, he, h1⟩
        · unfold insertNew at hn
          split at hn
          · cases hn
          · cases hn
            simp only [List.mem_cons] at h1
            rcases h1 with rfl | h1
            · exact .inr ⟨d, by simp, hp⟩
            · exact .inl h1
        · exact .inr ⟨e, by simp [he], h1⟩
    | err c => rw [hp] at h; exact lift (ih h x hx)
    | crash => rw [hp] at h; cases h
    | oof => rw [hp] at h; cases h

theorem parseAndCheck_sized {sys : Sys} {k : ConstraintKind} {p : Preamble} {sc : Scope} {c : Expr}
    {src : ConstraintSource} (hsc : ScopeSized sc) (h : parseAndCheck sys k p sc = .ok (some c, src)) :
    Everywhere SizedCast c := by
  simp only [parseAndCheck, Res.bind_eq_ok] at h
  obtain ⟨o, _, h⟩ := h
  cases o with
  | none => cases h
  | some s =>
    simp only [Res.bind_eq_ok] at h
    obtain ⟨e, _, e', h2, h⟩ := h
    cases h
    exact (infer_sized hsc h2).2

theorem program_sized {sys : Sys} {p : P4Info} {ci : ConstraintInfo} (hw : NoneOfWidthMinusOne p)
    (h : p4ToConstraintInfo sys p = .ok ci) : InfoSized ci := by
  simp only [p4ToConstraintInfo, Res.bind_eq_ok] at h
  obtain ⟨⟨ts, f1⟩, ht, ⟨as, f2⟩, ha, h⟩ := h
  simp only at h
  split at h
  · cases h
  cases h
  constructor
  · intro x hx c hc
    rcases collect_from ht x hx with h1 | ⟨t, htm, h1⟩
    · cases h1
    simp only [parseTableInfo, Res.bind_eq_ok] at h1
    obtain ⟨y, hy, ⟨o, s⟩, h2, h1⟩ := h1
    simp only [Res.ok.injEq] at h1
    rw [← h1] at hc
    simp only at hc
    subst hc
    exact parseAndCheck_sized (sc := .table y.2) (parseKeys_sized (hw.keys t htm) (by simp) hy) h2
  · intro x hx c hc
    rcases collect_from ha x hx with h1 | ⟨t, htm, h1⟩
    · cases h1
    simp only [parseActionInfo, Res.bind_eq_ok] at h1
    obtain ⟨y, hy, ⟨o, s⟩, h2, h1⟩ := h1
    simp only [Res.ok.injEq] at h1
    rw [← h1] at hc
    simp only at hc
    subst hc
    exact parseAndCheck_sized (sc := .action y.2) (parseParams_sized (hw.params t htm) (by simp) hy) h2

theorem program_scope {sys : Sys} {p : P4Info} {ci : ConstraintInfo} {id : Nat} {ti : TableInfo} (hw : NoneOfWidthMinusOne p)
    (h : p4ToConstraintInfo sys p = .ok ci) (hti : lookup id ci.tables = some ti) :
    ScopeSized (.table ti.keysByName) := by
  simp only [p4ToConstraintInfo, Res.bind_eq_ok] at h
  obtain ⟨⟨ts, f1⟩, ht, ⟨as, f2⟩, ha, h⟩ := h
  simp only at h
  split at h
  · cases h
  cases h
  rcases collect_from ht _ (lookup_some_mem hti) with h1 | ⟨t, htm, h1⟩
  · cases h1
  simp only [parseTableInfo, Res.bind_eq_ok] at h1
  obtain ⟨y, hy, ⟨o, s⟩, h2, h1⟩ := h1
  simp only [Res.ok.injEq] at h1
  rw [← h1]
  exact parseKeys_sized (hw.keys t htm) (by simp) hy

/-! ### The solver -/

theorem addStrD_dbg (m : Checks) (z : Z3Oracle) (sys : Sys) (s : Solver) (text : Str) :
    s.addConstraintStrD m z sys text = s.addConstraintStr z sys text ∨
    (m.dchecks = true ∧ ¬ (Runes text ∧ ScopeSized (.table s.table.keysByName))) ∧
      (s.addConstraintStrD m z sys text).1 = .crash := by
  have h : Dbg m (Runes text ∧ ScopeSized (.table s.table.keysByName))
      ((do
        let e ← parseConstraintD m sys .table ⟨text, { src := .tableName s.table.name }⟩
        inferAndCheckD m s.table.source (.table s.table.keysByName) e : Res Expr))
      ((do
        let e ← parseConstraint sys .table ⟨text, { src := .tableName s.table.name }⟩
        inferAndCheck s.table.source (.table s.table.keysByName) e : Res Expr)) :=
    Dbg.bind ((parseConstraintD_dbg m sys .table _).mono fun h => h.1)
      fun e _ => (inferD_dbg m s.table.source _ e).mono fun h => h.2
  unfold Solver.addConstraintStrD Solver.addConstraintStr
  simp only
  rcases h with h | ⟨hp, h⟩
  · rw [h]
    exact .inl rfl
  · rw [h]
    exact .inr ⟨hp, rfl⟩

/-! ### `p4check` -/

theorem coerceTables_encoded {p : P4Info} (h : Encoded p) : Encoded (coerceTables p) := by
  refine ⟨?_, h.actions⟩
  intro t ht
  simp only [coerceTables, List.mem_map] at ht
  obtain ⟨t', ht', rfl⟩ := ht
  exact h.tables t' ht'

theorem coerceTables_sized {p : P4Info} (h : NoneOfWidthMinusOne p) : NoneOfWidthMinusOne (coerceTables p) := by
  refine ⟨?_, h.params⟩
  intro t ht
  simp only [coerceTables, List.mem_map] at ht
  obtain ⟨t', ht', rfl⟩ := ht
  exact h.keys t' ht'

theorem checkFileD_dbg (m : Checks) (ci : ConstraintInfo) (f : FileRead RtEntry) :
    Dbg m (InfoSized ci) (checkFileD m ci f) (checkFile ci f) := by
  cases f with
  | missing => exact .refl _
  | malformed => exact .refl _
  | parsed entry =>
    unfold checkFileD checkFile
    rcases reasonEntryD_dbg m { entry with tableId := coerceId entry.tableId } ci with h | ⟨hp, h⟩
    · simp only [h]; exact .refl _
    · simp only [h]; exact .inr ⟨hp, rfl⟩

theorem checkFilesD_dbg (m : Checks) (ci : ConstraintInfo) (fs : List (Str × FileRead RtEntry)) :
    Dbg m (InfoSized ci) (checkFilesD m ci fs) (checkFiles ci fs) := by
  induction fs with
  | nil => exact .refl _
  | cons f fs ih => exact Dbg.bind (checkFileD_dbg m ci f.2) fun _ _ => Dbg.bind ih fun _ _ => .refl _

theorem p4checkD_dbg (m : Checks) (sys : Sys) (name : Str) (program : FileRead P4Info)
    (files : List (Str × FileRead RtEntry)) :
    Dbg m (∀ p, program = .parsed p → Encoded p ∧ NoneOfWidthMinusOne p) (p4checkD m sys name program files)
      (p4check sys name program files) := by
  unfold p4checkD p4check
  split
  · exact .refl _
  cases program with
  | missing => exact .refl _
  | malformed => exact .refl _
  | parsed p =>
    simp only
    rcases (programD_dbg m sys (coerceTables p)).mono (P := ∀ q, FileRead.parsed p = .parsed q → Encoded q ∧ NoneOfWidthMinusOne q)
        (fun h => ⟨coerceTables_encoded (h p rfl).1, coerceTables_sized (h p rfl).2⟩) with h | ⟨hp, h⟩
    · rw [h]
      cases hc : p4ToConstraintInfo sys (coerceTables p) with
      | ok ci =>
        exact Dbg.bind ((checkFilesD_dbg m ci files).mono fun h => program_sized (coerceTables_sized (h p rfl).2) hc)
          fun _ _ => .refl _
      | err c => exact .refl _
      | crash => exact .refl _
      | oof => exact .refl _
    · rw [h]; exact .inr ⟨hp, rfl⟩

/-! ### Texts in UTF-8 -/

theorem byte_toNat {n : Nat} (h : n < 256) : (Char.ofNat (UInt8.ofNat n).toNat).toNat = n := by
  have h1 : (UInt8.ofNat n).toNat = n := by simp; omega
  have h2 : n.isValidChar := .inl (by omega)
  rw [h1, Char.ofNat, dif_pos h2]
  exact BitVec.toNat_ofNatLT ..

theorem encode_rune (c : Char) : Rune ((String.utf8EncodeChar c).map fun b => Char.ofNat b.toNat) := by
  have hv : c.val.toNat < 0x110000 := by
    rcases c.valid with h | h <;> omega
  have hb := fun n (h : n < 256) => byte_toNat h
  unfold String.utf8EncodeChar
  simp only
  generalize c.val.toNat = v at hv
  have cont : ∀ n, Cont (Char.ofNat (UInt8.ofNat (n % 0x40 + 0x80)).toNat) := fun n => by
    unfold Cont; rw [hb _ (by omega)]; omega
  split
  · exact .ascii (by rw [hb _ (by omega)]; omega)
  · split
    · exact .two (by rw [hb _ (by omega)]; omega) (by rw [hb _ (by omega)]; omega) (cont _)
    · split
      · exact .three (by rw [hb _ (by omega)]; omega) (by rw [hb _ (by omega)]; omega) (cont _) (cont _)
      · exact .four (by rw [hb _ (by omega)]; omega) (by rw [hb _ (by omega)]; omega) (cont _) (cont _) (cont _)

theorem utf8_runes (text : String) : Runes (utf8 text) := by
  unfold utf8
  induction text.toList with
  | nil => exact .nil
  | cons c cs ih =>
    rw [List.flatMap_cons]
    exact .cons (encode_rune c) ih

end P4C
