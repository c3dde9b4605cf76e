import Verif.Spec.Obtain
import Verif.Proofs.Express
import Verif.Proofs.SolveLaws

/-
Lemmas for C95: constraints that only one entry satisfies.
-/

namespace P4C

open Spec

/-! ### Entries with the same values are the same -/

theorem canonical_value_unique {t : Ty} {a b : MatchVal} {v : Value} (ha : CanonicalMatch t a) (hb : CanonicalMatch t b)
    (da : MatchDenotes t a v) (db : MatchDenotes t b v) : a = b := by
  cases ha with
  | exact h1 h2 =>
    cases hb with
    | exact h3 h4 =>
      cases da
      generalize e : Value.exact _ = v at db
      cases db
      simp only [Value.exact.injEq, Int.natCast_inj] at e
      rw [canonicalBytes_unique h1 h3 e]
  | optional h1 h2 =>
    cases hb with
    | optional h3 h4 =>
      generalize e' : Ty.optionalMatch _ = t at da db
      cases da with
      | optional w v =>
        generalize e : Value.ternary _ _ = v at db
        generalize e'' : Ty.optionalMatch _ = t at db
        cases db
        simp only [Value.ternary.injEq, Int.natCast_inj] at e
        rw [canonicalBytes_unique h1 h3 e.1]
  | ternary h1 h2 h3 h4 h5 =>
    cases hb with
    | ternary g1 g2 g3 g4 g5 =>
      cases da
      generalize e : Value.ternary _ _ = v at db
      cases db
      simp only [Value.ternary.injEq, Int.natCast_inj] at e
      rw [canonicalBytes_unique h1 g1 e.1, canonicalBytes_unique h2 g2 e.2]
  | lpm h1 h2 h3 h4 h5 =>
    cases hb with
    | lpm g1 g2 g3 g4 g5 =>
      cases da
      generalize e : Value.lpm _ _ = v at db
      cases db
      simp only [Value.lpm.injEq, Int.natCast_inj] at e
      rw [canonicalBytes_unique h1 g1 e.1, e.2]

theorem canonical_not_wildcard {t : Ty} {a : MatchVal} {v : Value} (hs : SymSupported t) (ha : CanonicalMatch t a)
    (da : MatchDenotes t a v) (hw : WildcardOf t v) : False := by
  cases ha with
  | exact => cases hw
  | optional h1 h2 =>
    rename_i w b
    generalize e' : Ty.optionalMatch _ = t at da hw hs
    cases da with
    | optional w' =>
      cases e'
      cases hs with
      | optional hpos =>
        generalize e : Value.ternary _ _ = v at hw
        cases hw
        simp only [Value.ternary.injEq] at e
        have h3 : 2 ^ 1 ≤ 2 ^ w := Nat.pow_le_pow_right (by omega) (by omega)
        have c := two_pow_cast w
        omega
  | ternary h1 h2 h3 h4 h5 =>
    cases da
    generalize e : Value.ternary _ _ = v at hw
    cases hw
    simp only [Value.ternary.injEq] at e
    omega
  | lpm h1 h2 h3 h4 h5 =>
    cases da
    generalize e : Value.lpm _ _ = v at hw
    cases hw
    simp only [Value.lpm.injEq] at e
    omega

section
variable {vs : List VarInfo} {skip : Str → Bool} (hd : Distinct vs)
  (hsup : ∀ ki ∈ vs, skip ki.name = true ∨ SymSupported ki.ty) {a b : RtEntry} (ca : CanonicalOver vs skip a)
  (cb : CanonicalOver vs skip b)

include hd hsup ca cb in
theorem canonical_subset (hv : ∀ ki ∈ vs, skip ki.name = false → ∀ v, KeyValue a ki v → KeyValue b ki v) :
    ∀ m ∈ a.matches_, m ∈ b.matches_ := by
  intro m hm
  obtain ⟨ki, h1, h2, h3, h4⟩ := ca.keys m hm
  obtain ⟨v, h5⟩ := canonicalMatch_denotes h4
  have hs : SymSupported ki.ty := by
    rcases hsup ki h1 with h | h
    · rw [h2] at h; cases h
    · exact h
  rcases hv ki h1 h2 v (.inl ⟨m, hm, h3, h5⟩) with ⟨m', g1, g2, g3⟩ | ⟨_, g2⟩
  · obtain ⟨ki', g4, g5, g6, g7⟩ := cb.keys m' g1
    cases inj_of_nodup_map hd.1 g4 h1 (g6.symm.trans g2)
    have := canonical_value_unique h4 g7 h5 g3
    obtain ⟨x, y⟩ := m
    obtain ⟨x', y'⟩ := m'
    simp only at h3 g2 this
    subst h3 this
    rw [← g2]
    exact g1
  · exact (canonical_not_wildcard hs h4 h5 g2).elim

end

theorem nodup_of_fieldIds {l : List FieldMatch} (h : (l.map FieldMatch.fieldId).Nodup) : l.Nodup :=
  (List.pairwise_map.1 h).imp fun hne he => hne (congrArg _ he)

theorem sameUpToOrder_keyValue {a b : RtEntry} (h : SameUpToOrder a b) (ki : VarInfo) (v : Value) : KeyValue a ki v → KeyValue b ki v := by
  rintro (⟨m, h1, h2⟩ | ⟨h1, h2⟩)
  · exact .inl ⟨m, h.matches_.mem_iff.1 h1, h2⟩
  · exact .inr ⟨fun m hm => h1 m (h.matches_.mem_iff.2 hm), h2⟩

theorem sameUpToOrder_symm {a b : RtEntry} (h : SameUpToOrder a b) : SameUpToOrder b a := ⟨h.table.symm, h.matches_.symm, h.priority.symm⟩

theorem sameUpToOrder_true {a b : RtEntry} (h : SameUpToOrder a b) {d : TableDecl} {se : SExpr} (ht : SignedTrueOf d a se) :
    SignedTrueOf d b se := by
  obtain ⟨vs, ρ, h1, h2, h3, h4⟩ := ht
  refine ⟨vs, ρ, h1, ⟨?_, ?_, ?_⟩, ⟨?_, h3.param, h3.priority.trans (by rw [h.priority])⟩, h4⟩
  · exact fun m hm => h2.known m (h.matches_.mem_iff.2 hm)
  · exact (h.matches_.map _).nodup_iff.1 h2.once
  · intro ki hki
    rcases h2.complete ki hki with ⟨m, g1, g2⟩ | g
    · exact .inl ⟨m, h.matches_.mem_iff.1 g1, g2⟩
    · exact .inr g
  · intro n v
    rw [h3.key]
    constructor
    · rintro ⟨ki, g1, g2, g3⟩; exact ⟨ki, g1, g2, sameUpToOrder_keyValue h ki v g3⟩
    · rintro ⟨ki, g1, g2, g3⟩; exact ⟨ki, g1, g2, sameUpToOrder_keyValue (sameUpToOrder_symm h) ki v g3⟩

theorem sameUpToOrder_solution {a b : RtEntry} (h : SameUpToOrder a b) {pton : Str → Option Bytes} {d : TableDecl} {skip : Str → Bool}
    {texts : List Str} (hs : SignedSolution pton d skip texts a) : SignedSolution pton d skip texts b := by
  obtain ⟨⟨h1, vs, h2, h3⟩, ht, hx⟩ := hs
  refine ⟨⟨h.table ▸ h1, vs, h2, ⟨?_, ?_, ?_, ?_⟩⟩, ?_, ?_⟩
  · exact fun m hm => h3.keys m (h.matches_.mem_iff.2 hm)
  · exact (h.matches_.map _).nodup_iff.1 h3.once
  · intro ki g1 w g2 g3
    obtain ⟨m, g4, g5⟩ := h3.exact ki g1 w g2 g3
    exact ⟨m, h.matches_.mem_iff.1 g4, g5⟩
  · rw [← h.priority]; exact h3.priority
  · rcases ht with ht | ⟨s, g1, g2⟩
    · exact .inl ht
    · exact .inr ⟨s, g1, sameUpToOrder_true h g2⟩
  · intro text hm
    obtain ⟨s, g1, g2⟩ := hx text hm
    exact ⟨s, g1, sameUpToOrder_true h g2⟩

/-! ### Constraints that only one entry satisfies -/

theorem sayKey_names {K A : Str → Prop} {n : Str} (hn : K n) (v : Value) : NamesIn K A (sayKey n v) := by
  cases v <;> simp [sayKey, sayField, NamesIn, hn]

theorem sayKey_plain (Γ : Sig) (n : Str) (v : Value) : NoOrderedBits Γ (sayKey n v) := by
  cases v <;> simp [sayKey, sayField, NoOrderedBits, Cmp.isOrder]

theorem sayPriority_names {K A : Str → Prop} (ha : A c!"priority") (p : Int) : NamesIn K A (sayPriority p) := by
  unfold sayPriority; split <;> simp [NamesIn, ha]

theorem sayPriority_plain (Γ : Sig) (p : Int) : NoOrderedBits Γ (sayPriority p) := by
  unfold sayPriority; split <;> simp [NoOrderedBits, Cmp.isOrder]

/-- A constraint that can be written, on keys that are not skipped, without ordered comparisons. -/
structure Pin (vs : List VarInfo) (skip : Str → Bool) (s : SExpr) : Prop where
  typed : HasTy (keySig vs) s .boolean
  writable : Writable .table s
  names : NamesIn (fun n => ∃ ki ∈ vs, ki.name = n ∧ skip n = false) (fun a => a = c!"priority" ∧ WithPriority vs) s
  plain : NoOrderedBits (keySig vs) s

section
variable {vs : List VarInfo} {skip : Str → Bool} (hd : Distinct vs)
  (hsup : ∀ ki ∈ vs, skip ki.name = true ∨ SymSupported ki.ty)
  (hname : ∀ ki ∈ vs, (∀ w, ki.ty ≠ .fixedUnsigned w) ∧ (skip ki.name = false → ∀ p ∈ splitDots ki.name, Ident p))
  {e : RtEntry} (ce : CanonicalOver vs skip e) (fe : EntryFits vs e)

include hd hsup in
theorem canonical_values (ce : CanonicalOver vs skip e) {ki : VarInfo} (hki : ki ∈ vs) (hsk : skip ki.name = false) {v : Value}
    (hv : KeyValue e ki v) : ∃ W, OfWidth W ki.ty ∧ WellFormed W ki.ty v := by
  rcases hv with ⟨m, h1, h2, h3⟩ | ⟨_, h2⟩
  · obtain ⟨ki', g4, g5, g6, g7⟩ := ce.keys m h1
    cases inj_of_nodup_map hd.1 g4 hki (g6.symm.trans h2)
    exact canonicalMatch_wellFormed g7 h3
  · refine wildcardOf_wellFormed h2 ?_
    rcases hsup ki hki with h | h
    · rw [hsk] at h; cases h
    · generalize ki.ty = t at h
      cases h <;> (simp only [NonNeg]; omega)

include hd hsup hname ce fe in
theorem pin_keys (l : List VarInfo) (hl : ∀ ki ∈ l, ki ∈ vs ∧ skip ki.name = false) : ∃ s, Pin vs skip s ∧
    ∀ out ρ, CanonicalOver vs skip out → EntryFits vs out → EntryMeans vs out ρ →
      (Evaluates (keySig vs) ρ s .boolean (.bool true) ↔ ∀ ki ∈ l, ∀ v, KeyValue e ki v → KeyValue out ki v) := by
  induction l with
  | nil => exact ⟨.bool true, ⟨.bool _, trivial, trivial, trivial⟩, fun out ρ _ _ _ => ⟨fun _ => nofun, fun _ => .bool _⟩⟩
  | cons ki l ih =>
    obtain ⟨s, hp, hs⟩ := ih fun k hk => hl k (List.mem_cons_of_mem _ hk)
    obtain ⟨hki, hsk⟩ := hl ki List.mem_cons_self
    obtain ⟨hne, hn⟩ := hname ki hki
    obtain ⟨v, hv⟩ := hasValue hd.1 fe hki
    obtain ⟨W, h1, h2⟩ := canonical_values hd hsup ce hki hsk hv
    have hsig := keySig_of_mem hd hki
    obtain ⟨t1, t2⟩ := say_key_ok h1 (hne _) hsig h2 (hn hsk)
    refine ⟨.conn .and (sayKey ki.name v) s, ⟨.conn t1 hp.typed, ⟨t2, hp.writable⟩,
      ⟨sayKey_names ⟨ki, hki, rfl, hsk⟩ v, hp.names⟩, ⟨sayKey_plain _ _ _, hp.plain⟩⟩, fun out ρ co fo mo => ?_⟩
    obtain ⟨w, hw⟩ := hasValue hd.1 fo hki
    obtain ⟨W', h3, h4⟩ := canonical_values hd hsup co hki hsk hw
    cases ofWidth_unique h1 h3
    rw [evaluates_and, hs out ρ co fo mo,
      say_key h1 (hne _) hsig ((mo.key _ _).2 ⟨ki, hki, rfl, hw⟩) h2 h4]
    constructor
    · rintro ⟨rfl, h5⟩ k hk u hu
      rcases List.mem_cons.1 hk with rfl | hk
      · cases keyValue_once fe.once hv hu; exact hw
      · exact h5 k hk u hu
    · intro h5
      exact ⟨keyValue_once fo.once hw (h5 ki List.mem_cons_self v hv), fun k hk => h5 k (List.mem_cons_of_mem _ hk)⟩

include hd hsup hname ce fe in
theorem pin_entry : ∃ s, Pin vs skip s ∧ ∀ out ρ, CanonicalOver vs skip out → EntryFits vs out → EntryMeans vs out ρ →
    (Evaluates (keySig vs) ρ s .boolean (.bool true) ↔ out.matches_.Perm e.matches_ ∧ out.priority = e.priority) := by
  obtain ⟨s, hp, hs⟩ := pin_keys hd hsup hname ce fe (vs.filter fun ki => !skip ki.name) (by simp)
  have same : ∀ out, CanonicalOver vs skip out → EntryFits vs out →
      ((∀ ki ∈ vs.filter fun ki => !skip ki.name, ∀ v, KeyValue e ki v → KeyValue out ki v) ↔ out.matches_.Perm e.matches_) := by
    intro out co fo
    constructor
    · intro h1
      have h2 : ∀ ki ∈ vs, skip ki.name = false → ∀ v, KeyValue e ki v → KeyValue out ki v :=
        fun ki hki hsk => h1 ki (by simp [hki, hsk])
      have h3 : ∀ ki ∈ vs, skip ki.name = false → ∀ v, KeyValue out ki v → KeyValue e ki v := by
        intro ki hki hsk v hv
        obtain ⟨w, hw⟩ := hasValue hd.1 fe hki
        cases keyValue_once fo.once hv (h2 ki hki hsk w hw)
        exact hw
      refine (List.perm_ext_iff_of_nodup (nodup_of_fieldIds co.once) (nodup_of_fieldIds ce.once)).2 fun m => ⟨?_, ?_⟩
      · exact canonical_subset hd hsup co ce h3 m
      · exact canonical_subset hd hsup ce co h2 m
    · intro h1 ki _ v
      rintro (⟨m, g1, g2⟩ | ⟨g1, g2⟩)
      · exact .inl ⟨m, h1.mem_iff.2 g1, g2⟩
      · exact .inr ⟨fun m hm => g1 m (h1.mem_iff.1 hm), g2⟩
  rcases ce.priority with ⟨h1, h2, h3⟩ | ⟨h1, h2⟩
  · obtain ⟨t1, t2⟩ := say_priority_ok (keySig vs) e.priority
    refine ⟨.conn .and s (sayPriority e.priority), ⟨.conn hp.typed t1, ⟨hp.writable, t2⟩,
      ⟨hp.names, sayPriority_names ⟨rfl, h1⟩ _⟩, ⟨hp.plain, sayPriority_plain _ _⟩⟩, fun out ρ co fo mo => ?_⟩
    rw [evaluates_and, hs out ρ co fo mo, say_priority mo.priority, same out co fo]
  · refine ⟨s, hp, fun out ρ co fo mo => ?_⟩
    rw [hs out ρ co fo mo, same out co fo]
    rcases co.priority with ⟨g, _⟩ | ⟨_, g⟩
    · exact (h1 g).elim
    · rw [g, h2]; simp

end

theorem written_says {pton : Str → Option Bytes} {d : TableDecl} {vs : List VarInfo} (hk : Each KeyDecl d.matchFields vs) {s : SExpr}
    (hw : Writable .table s) (ht : HasTy (keySig vs) s .boolean) : TextSays pton d (toText (print natDec s 0)) s := by
  let sys : Sys := { Ex.sys with inetPton6 := pton }
  let src : ConstraintSource := ⟨toText (print natDec s 0), { src := .tableName d.preamble.name }⟩
  have htok : (tokenize src).map kindText = print natDec s 0 ++ [(.endOfInput, [])] := by
    rw [tokens_src, tokensOf_text (print_plain natDec_val s hw 0)]
  obtain ⟨toks, last, _, h3, _, h4⟩ := parseConstraint_tokens (sys := sys) (k := .table) htok
  obtain ⟨e, h5, h6⟩ := print_reading (pton := pton) natDec_val s hw 0 (by omega) toks h3
  exact ⟨vs, _, e, hk, tokenize_lexed src, parseConstraint_iff.1 ((h4 e).2 h5), h6, ht⟩

section
variable {sys : Sys} {p : P4Info} {ci : ConstraintInfo} (h : p4ToConstraintInfo sys p = .ok ci) {d : TableDecl}
  (hd : d ∈ p.tables) {ti : TableInfo} (hti : lookup d.preamble.id ci.tables = some ti) {skip : Str → Bool}
  (hs : Solvable d skip) {z : Z3Oracle} (hz : z.Sound) (hdec : Z3Oracle.Decides z)

include h hd hti hs in
theorem plain_true {s : Solver} {texts : List Str} (hr : SolverRun z sys ti skip s texts) {text : Str} {se : SExpr}
    (hse : TextSays sys.inetPton6 d text se) (hmen : Mentionable d skip se) {vs : List VarInfo}
    (hk : Each KeyDecl d.matchFields vs) (hp : NoOrderedBits (keySig vs) se) {entry : RtEntry} (hc : CanonicalFor d skip entry) :
    SignedTrueOf d entry se ↔ ∃ ρ, EntryMeans vs entry ρ ∧ Evaluates (keySig vs) ρ se .boolean (.bool true) := by
  constructor
  · rintro ⟨vs', ρ, h1, h2, h3, h4⟩
    cases keys_same hk h1
    exact ⟨ρ, h3, means_evaluates (signed_means h4 (noOrderedBits_safe hp ρ)) hp⟩
  · rintro ⟨ρ, h1, h2⟩
    obtain ⟨vs', ρ', b, g1, g2, g3, g4⟩ := signed_total h hd hti hs hr hse hmen hc
    cases keys_same hk g1
    cases entryMeans_unique h1 g3
    obtain ⟨_, g5⟩ := evaluates_means h2 (signed_means g4 (noOrderedBits_safe hp ρ))
    rw [← g5] at g4
    exact ⟨vs, ρ, hk, g2, h1, g4⟩

include h hd hti hs in
/-- A constraint that says that the entry is `e`. -/
theorem entry_pinned (hn : KeysNameable d skip) {e : RtEntry} (hc : CanonicalFor d skip e) (hsup : AllSupported d skip) :
    ∃ vs se, Each KeyDecl d.matchFields vs ∧ Pin vs skip se ∧ TrueOf d e se ∧
      ∀ s texts, SolverRun z sys ti skip s texts → ∀ out, CanonicalFor d skip out →
        (SignedTrueOf d out se ↔ SameUpToOrder out e) := by
  obtain ⟨hid, vs, hk, ce⟩ := id hc
  obtain ⟨vs', _, k1, k2, _⟩ := (p4ToConstraintInfo_succeeds.1 ⟨ci, h⟩).2.2.1 d hd
  cases keys_same hk k1
  have hname : ∀ ki ∈ vs, (∀ w, ki.ty ≠ .fixedUnsigned w) ∧ (skip ki.name = false → ∀ p ∈ splitDots ki.name, Ident p) := by
    intro ki hki
    obtain ⟨f, hf, hfk⟩ := each_mem hk ki hki
    obtain ⟨h1, h2⟩ := keyDecl_name hfk
    exact ⟨h2, fun h3 => h1 ▸ hn f hf (h1 ▸ h3)⟩
  have fits : ∀ {o}, CanonicalOver vs skip o → EntryFits vs o := fun co => canonical_fits co (hs.omittable vs hk) (hsup vs hk)
  have means : ∀ {o}, CanonicalFor d skip o → ∃ ρ, EntryMeans vs o ρ := by
    intro o ho
    obtain ⟨vs', ρ, hk', hm', _, henv⟩ := canonical_env h hd hti hs hsup ho
    cases keys_same hk hk'
    exact ⟨ρ, (entryEnv_means hm').1 henv⟩
  obtain ⟨se, hp, hiff⟩ := pin_entry k2 (hsup vs hk) hname ce (fits ce)
  have hsay := written_says (pton := sys.inetPton6) hk hp.writable hp.typed
  have hmen : Mentionable d skip se := ⟨vs, hk, hp.names⟩
  obtain ⟨ρe, he⟩ := means hc
  refine ⟨vs, se, hk, hp, ⟨vs, ρe, hk, fits ce, he, (hiff e ρe ce (fits ce) he).2 ⟨.refl _, rfl⟩⟩, fun s texts hr out ho => ?_⟩
  rw [plain_true h hd hti hs hr hsay hmen hk hp.plain ho]
  obtain ⟨ρ, hm⟩ := means ho
  obtain ⟨hid', vs', hk', co⟩ := ho
  cases keys_same hk hk'
  constructor
  · rintro ⟨ρ', h1, h2⟩
    obtain ⟨h3, h4⟩ := (hiff out ρ' co (fits co) h1).1 h2
    exact ⟨hid'.trans hid.symm, h3, h4⟩
  · exact fun h1 => ⟨ρ, hm, (hiff out ρ co (fits co) hm).2 ⟨h1.matches_, h1.priority⟩⟩

include h hd hti in
theorem run_supported {s : Solver} {texts : List Str} (hr : SolverRun z sys ti skip s texts) : AllSupported d skip := by
  have hpi := declared_parse h hd hti
  obtain ⟨vs, hk, _, hmaps, _⟩ := parseTableInfo_parts hpi
  obtain ⟨ds, hre, he⟩ := run_reachable hr
  obtain ⟨ks, as, hi⟩ := reachable_inv hre
  exact inv_supported hk hmaps hi (parseTableInfo_wf hpi)

include h hd hti hs in
/-- A text that says that the entry is `e`, and one that says that it is another. -/
theorem entry_texts (hn : KeysNameable d skip) {e : RtEntry} (hc : CanonicalFor d skip e) :
    ∃ text other, ∀ s texts, SolverRun z sys ti skip s texts →
      (∃ se, TextSays sys.inetPton6 d text se ∧ Mentionable d skip se ∧ PlainOrder d se ∧ TrueOf d e se) ∧
      (∃ se, TextSays sys.inetPton6 d other se ∧ Mentionable d skip se ∧ PlainOrder d se) ∧
      (∀ out, SignedSolution sys.inetPton6 d skip (text :: texts) out ↔
        SignedSolution sys.inetPton6 d skip texts out ∧ SameUpToOrder out e) ∧
      ∀ out, SignedSolution sys.inetPton6 d skip (other :: texts) out ↔
        SignedSolution sys.inetPton6 d skip texts out ∧ ¬ SameUpToOrder out e := by
  by_cases hrun : ∃ s texts, SolverRun z sys ti skip s texts
  · obtain ⟨_, _, hr0⟩ := hrun
    obtain ⟨vs, se, hk, hp, ht, hiff⟩ := entry_pinned (z := z) h hd hti hs hn hc (run_supported h hd hti hr0)
    have hsay := written_says (pton := sys.inetPton6) hk hp.writable hp.typed
    have hsay' := written_says (pton := sys.inetPton6) (s := .not se) hk hp.writable (.not hp.typed)
    have hmen : Mentionable d skip se := ⟨vs, hk, hp.names⟩
    have hmen' : Mentionable d skip (.not se) := ⟨vs, hk, hp.names⟩
    have hplain : PlainOrder d se := fun vs' hk' => by cases keys_same hk hk'; exact hp.plain
    have hplain' : PlainOrder d (.not se) := fun vs' hk' => by cases keys_same hk hk'; exact hp.plain
    have cons : ∀ {text se texts}, TextSays sys.inetPton6 d text se → ∀ out,
        (SignedSolution sys.inetPton6 d skip (text :: texts) out ↔
          SignedSolution sys.inetPton6 d skip texts out ∧ SignedTrueOf d out se) := by
      intro text se texts hsay out
      constructor
      · intro ho
        obtain ⟨se', h1, h2⟩ := ho.texts _ List.mem_cons_self
        cases textSays_unique h hd hti hsay h1
        exact ⟨signedSolution_mono (fun t ht => List.mem_cons_of_mem _ ht) ho, h2⟩
      · rintro ⟨ho, h1⟩
        refine ⟨ho.canonical, ho.table, fun t ht => ?_⟩
        rcases List.mem_cons.1 ht with rfl | ht
        · exact ⟨se, hsay, h1⟩
        · exact ho.texts t ht
    refine ⟨_, _, fun s texts hr => ⟨⟨se, hsay, hmen, hplain, ht⟩, ⟨_, hsay', hmen', hplain'⟩, fun out => ?_, fun out => ?_⟩⟩
    · rw [cons hsay]
      exact and_congr_right fun ho => hiff s texts hr out ho.canonical
    · rw [cons hsay']
      refine and_congr_right fun ho => ?_
      rw [signed_not h hd hti hs hr hsay hmen ho.canonical, hiff s texts hr out ho.canonical]
  · exact ⟨[], [], fun s texts hr => (hrun ⟨s, texts, hr⟩).elim⟩

end

end P4C
