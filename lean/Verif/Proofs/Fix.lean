import Verif.Proofs.Constant
import Verif.Proofs.Obtain
import Verif.Proofs.Small

/-
Constraint solvers to which comparisons of keys with constants are added (C108).
-/

namespace P4C

open Spec

theorem integer_plain {Γ : Sig} {ρ : Env} {e : SExpr} {c : Int} (h : IsInteger e c) :
    OrderSafe Γ ρ e ∧ NoOrderedExact Γ e ∧ ∀ K A, NamesIn K A e := by
  induction h with
  | int c => exact ⟨trivial, trivial, fun _ _ => trivial⟩
  | neg _ ih => exact ih

theorem integer_means {Γ : Sig} {ρ : Env} {e : SExpr} {c : Int} (h : IsInteger e c) {t : Ty} {v : Value} (hm : Means Γ ρ e t v) :
    t = .arbitraryInt := by
  induction h generalizing v with
  | int c => cases hm; rfl
  | neg _ ih => cases hm; rfl

/-- A field that is not a bit string. -/
theorem prefix_int {t u : Ty} (h : FieldTy t c!"prefix_length" u) : u = .arbitraryInt := by
  generalize hg : c!"prefix_length" = g at h
  cases h <;> first | rfl | exact absurd hg (by decide)

section
variable {sys : Sys} {p : P4Info} {ci : ConstraintInfo} (h : p4ToConstraintInfo sys p = .ok ci) {d : TableDecl}
  (hd : d ∈ p.tables) {f : MatchField} (hf : f ∈ d.matchFields) {e : SExpr} {c : Int} (he : IsInteger e c)

include he in
theorem key_small (entry : RtEntry) : OrdersSmall d entry (.cmp .eq (.key f.name) e) := fun _ _ _ _ =>
  ⟨⟨trivial, (integer_plain he).1, nofun⟩, trivial, (integer_plain (ρ := ⟨fun _ => none, fun _ => none, none⟩) he).2.1, nofun⟩

include he in
theorem field_small {o : Cmp} {g : Str} (ho : o.isOrder = false ∨ g = c!"prefix_length") (entry : RtEntry) :
    OrdersSmall d entry (.cmp o (.field (.key f.name) g) e) := by
  intro vs ρ hk hρ
  refine ⟨⟨trivial, (integer_plain he).1, ?_⟩, trivial, (integer_plain (ρ := ρ) he).2.1, ?_⟩
  · intro hx a b t v w h1 h2 h3
    rcases ho with ho | rfl
    · rw [ho] at hx; cases hx
    left
    have hb : b = .arbitraryInt := integer_means he h2
    cases h1 with
    | field _ h4 _ =>
      cases prefix_int h4
      subst hb
      exact isJoin_unique h3 (lub_iff.1 (by simp [leastUpperBound]))
  · intro hx w
    refine ⟨fun h1 => ?_, fun h1 => ?_⟩
    · cases h1 with
      | field _ h2 => cases h2
    · clear hx
      induction he with
      | int => cases h1
      | neg _ ih => cases h1


include h hd hf he in
/-- For which entries a comparison of a key with a constant is true. -/
theorem key_true {text : Str} (ht : TextSays sys.inetPton6 d text (.cmp .eq (.key f.name) e)) (hpos : 0 < f.bitwidth)
    {vs : List VarInfo} (hv : Each KeyDecl d.matchFields vs) {entry : RtEntry} (hfit : EntryFits vs entry) :
    SignedTrueOf d entry (.cmp .eq (.key f.name) e) ↔
      ∃ m ∈ entry.matches_, m.fieldId = f.id ∧ MatchesOnly f m.val (c % 2 ^ f.bitwidth.toNat) := by
  have hty := textSays_typed ht
  have hdist := declared_distinct h hd hv
  obtain ⟨ki, hki, hfk⟩ := each_mem_left hv f hf
  have hname := (keyDecl_name hfk).1
  have hsig := keySig_of_mem hdist hki
  rw [hname] at hsig
  have hsup : Supported ki.ty := by
    cases hty vs hv with
    | cmp h1 _ _ _ =>
      cases h1 with
      | key h2 h3 => rw [hsig] at h2; cases h2; exact h3
  obtain ⟨v, hval⟩ := hasValue hdist.1 hfit hki
  rw [← keyValue_only hfk hpos hval hfit.once]
  constructor
  · intro hx
    obtain ⟨vs', ρ, hv', _, hρ, hev⟩ := signed_true hty (key_small he entry) hx
    cases keys_same hv hv'
    exact (equals_iff hsig ((hρ.key _ _).2 ⟨ki, hki, hname, hval⟩) he (join_key hfk hsup)).1 hev
  · intro hx
    obtain ⟨ρ, hρ⟩ := means_exists h hd hv hfit
    exact true_signed h hd hty (key_small he entry) ⟨vs, ρ, hv, hfit, hρ,
      (equals_iff hsig ((hρ.key _ _).2 ⟨ki, hki, hname, hval⟩) he (join_key hfk hsup)).2 hx⟩

include h hd hf he in
/-- For which entries a comparison of a field with a constant is true. -/
theorem field_true {text : Str} {o : Cmp} {g : Str} (ho : o.isOrder = false ∨ g = c!"prefix_length")
    (ht : TextSays sys.inetPton6 d text (.cmp o (.field (.key f.name) g) e))
    {vs : List VarInfo} (hv : Each KeyDecl d.matchFields vs) {entry : RtEntry} (hfit : EntryFits vs entry) :
    SignedTrueOf d entry (.cmp o (.field (.key f.name) g) e) ↔ ∃ z, FieldNumber f g entry z ∧ o.ofInts z (written f g c) := by
  have hty := textSays_typed ht
  have hdist := declared_distinct h hd hv
  obtain ⟨ki, hki, hfk⟩ := each_mem_left hv f hf
  have hname := (keyDecl_name hfk).1
  have hsig := keySig_of_mem hdist hki
  rw [hname] at hsig
  obtain ⟨t, hft⟩ : ∃ t, FieldTy ki.ty g t := by
    cases hty vs hv with
    | cmp h1 _ _ _ =>
      cases h1 with
      | field h2 h3 =>
        cases h2 with
        | key h4 _ => rw [hsig] at h4; cases h4; exact ⟨_, h3⟩
  obtain ⟨v, hval⟩ := hasValue hdist.1 hfit hki
  simp only [← fieldNumber_iff hfk hval hfit.once]
  constructor
  · intro hx
    obtain ⟨vs', ρ, hv', _, hρ, hev⟩ := signed_true hty (field_small he ho entry) hx
    cases keys_same hv hv'
    exact (field_iff hfk hsig ((hρ.key _ _).2 ⟨ki, hki, hname, hval⟩) he hft).1 hev
  · intro hx
    obtain ⟨ρ, hρ⟩ := means_exists h hd hv hfit
    exact true_signed h hd hty (field_small he ho entry) ⟨vs, ρ, hv, hfit, hρ,
      (field_iff hfk hsig ((hρ.key _ _).2 ⟨ki, hki, hname, hval⟩) he hft).2 hx⟩

include h hd hf he in
/-- A solver understands such comparisons iff it does not skip the key. -/
theorem cmp_mentionable {skip : Str → Bool} {o : Cmp} {x : SExpr} (hx : ∀ K A, NamesIn K A x ↔ K f.name) :
    Mentionable d skip (.cmp o x e) ↔ skip f.name = false := by
  constructor
  · rintro ⟨vs, _, h1⟩
    obtain ⟨_, _, _, h2⟩ := (hx _ _).1 h1.1
    exact h2
  · intro h1
    obtain ⟨_, _, hp⟩ := table_declared h hd
    obtain ⟨vs, hk, _, _, _⟩ := parseTableInfo_parts hp
    obtain ⟨ki, hki, hfk⟩ := each_mem_left hk f hf
    exact ⟨vs, hk, (hx _ _).2 ⟨ki, hki, (keyDecl_name hfk).1, h1⟩,
      (integer_plain (Γ := keySig []) (ρ := ⟨fun _ => none, fun _ => none, none⟩) he).2.2 _ _⟩

end

section
variable {sys : Sys} {p : P4Info} {ci : ConstraintInfo} (h : p4ToConstraintInfo sys p = .ok ci) {d : TableDecl}
  (hd : d ∈ p.tables) {ti : TableInfo} (hti : lookup d.preamble.id ci.tables = some ti) {skip : Str → Bool} (hs : Solvable d skip)
  {z : Z3Oracle} {s : Solver} {texts : List Str} (hr : SolverRun z sys ti skip s texts)

include h hd hti hs hr in
/-- Entries in canonical form fit. -/
theorem run_fits {entry : RtEntry} (hc : CanonicalFor d skip entry) : ∃ vs, Each KeyDecl d.matchFields vs ∧ EntryFits vs entry := by
  obtain ⟨vs, ρ, h1, _, h2, _⟩ := canonical_env h hd hti hs (run_supported h hd hti hr) hc
  exact ⟨vs, h1, h2⟩

include h hd hti in
/-- Solutions with one more text. -/
theorem solution_cons {text : Str} {se : SExpr} (ht : TextSays sys.inetPton6 d text se) (entry : RtEntry) :
    SignedSolution sys.inetPton6 d skip (text :: texts) entry ↔
      SignedSolution sys.inetPton6 d skip texts entry ∧ SignedTrueOf d entry se := by
  constructor
  · rintro ⟨h1, h2, h3⟩
    refine ⟨⟨h1, h2, fun t ht => h3 t (.tail _ ht)⟩, ?_⟩
    obtain ⟨s', g1, g2⟩ := h3 text (.head _)
    cases textSays_unique h hd hti ht g1
    exact g2
  · rintro ⟨⟨h1, h2, h3⟩, h4⟩
    refine ⟨h1, h2, fun t ht' => ?_⟩
    rcases List.mem_cons.1 ht' with rfl | ht'
    · exact ⟨_, ht, h4⟩
    · exact h3 t ht'

variable (hz : z.Sound)

include h hd hti hs hr hz in
/-- The entry returned satisfies a text that was accepted. -/
theorem returned_true {text : Str} {se : SExpr} (ht : TextSays sys.inetPton6 d text se) (hmem : text ∈ texts) {s' : Solver}
    {entry : RtEntry} (hc : s.concretize z = (.ok entry, s')) :
    CanonicalFor d skip entry ∧ SignedTrueOf d entry se := by
  obtain ⟨⟨h1, _, h3⟩, _⟩ := signed_concretize_solves h hd hti hs hz hr hc
  refine ⟨h1, ?_⟩
  obtain ⟨s', g1, g2⟩ := h3 text hmem
  cases textSays_unique h hd hti ht g1
  exact g2

end

/-- Matches of entries in canonical form are not wildcards. -/
theorem canonical_notWild {ki : VarInfo} {w : Int} (hpos : 0 < w) {mv : MatchVal}
    (hc : CanonicalMatch ki.ty mv) {g : Str} (hg : g = c!"mask" ∨ g = c!"prefix_length") : ¬ InMatch w mv g 0 := by
  have hm := mask_pos hpos
  intro hi
  generalize hz : (0 : Int) = z at hi
  cases hi with
  | exactValue | ternaryValue | optionalValue | lpmValue | rangeLow | rangeHigh => exact absurd hg (by decide)
  | ternaryMask v m =>
    generalize ki.ty = t at hc
    cases hc with
    | ternary _ _ _ h1 _ => omega
  | optionalMask v => omega
  | lpmPrefix v n =>
    generalize ki.ty = t at hc
    cases hc with
    | lpm _ _ h1 _ _ => omega

section
variable {sys : Sys} {p : P4Info} {ci : ConstraintInfo} (h : p4ToConstraintInfo sys p = .ok ci) {d : TableDecl}
  (hd : d ∈ p.tables)

include h hd in
/-- A mask or a prefix length is 0 iff the key is omitted. -/
theorem zero_omitted {skip : Str → Bool} {entry : RtEntry} (hc : CanonicalFor d skip entry) {f : MatchField} (hf : f ∈ d.matchFields)
    (hpos : 0 < f.bitwidth) {g : Str} (hg : g = c!"mask" ∨ g = c!"prefix_length") (hx : HasField f.kind g) :
    FieldNumber f g entry 0 ↔ ∀ m ∈ entry.matches_, m.fieldId ≠ f.id := by
  obtain ⟨_, vs, hv, hc⟩ := hc
  constructor
  · rintro (⟨m, h1, h2, h3⟩ | ⟨h1, _⟩)
    · obtain ⟨ki, hki, _, h5, h6⟩ := hc.keys m h1
      obtain ⟨ki', hki', hfk⟩ := each_mem_left hv f hf
      have hid : ki'.id = f.id := by cases hfk <;> rfl
      have hkk : ki = ki' := inj_of_nodup_map (declared_distinct h hd hv).1 hki hki' (by rw [hid, ← h2, h5])
      subst hkk
      exact absurd h3 (canonical_notWild hpos h6 hg)
    · exact h1
  · intro h1
    refine .inr ⟨h1, ?_⟩
    generalize f.kind = k at hx
    cases hx with
    | exactValue | ternaryValue | optionalValue | lpmValue | rangeLow | rangeHigh => exact absurd hg (by decide)
    | ternaryMask => exact .ternaryMask
    | optionalMask => exact .optionalMask
    | lpmPrefix => exact .lpmPrefix

end

end P4C
