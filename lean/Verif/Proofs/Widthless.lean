import Verif.Spec.Widthless
import Verif.Proofs.Formula

/-!
# Keys without bits
-/

namespace P4C

open Spec

theorem bytesNat_zero {bs : Bytes} : bytesNat bs = 0 ↔ AllZero bs := by
  induction bs with
  | nil => simp [bytesNat, AllZero]
  | cons b bs ih =>
    have hp : 256 ^ bs.length ≠ 0 := by simp
    simp only [AllZero, List.mem_cons, forall_eq_or_imp, bytesNat, Nat.add_eq_zero_iff, Nat.mul_eq_zero, hp, or_false, ih]
    rw [show b.toNat = 0 ↔ b = 0 by
      constructor
      · intro h; exact UInt8.toNat_inj.1 h
      · rintro rfl; rfl]

theorem denotes_zero {f : MatchField} {ki : VarInfo} (h : KeyDecl f ki) (hz : f.bitwidth = 0) {mv : MatchVal} {v : Value}
    (hv : MatchDenotes ki.ty mv v) (c : Int) : v = convert .arbitraryInt ki.ty (.int c) ↔ ZeroMatch mv := by
  have hm : c % 2 ^ (0 : Int).toNat = 0 := by simp
  cases h with
  | exact id n w =>
    cases hv
    dsimp only at hz
    subst hz
    simp only [convert, exactMatch, reduceCtorEq, if_false, Value.exact.injEq, hm, Int.natCast_eq_zero, bytesNat_zero]
    exact ⟨.exact, fun h => by cases h; assumption⟩
  | ternary id n w =>
    cases hv
    dsimp only at hz
    subst hz
    simp only [convert, exactMatch, reduceCtorEq, if_false, Value.ternary.injEq, Int.natCast_eq_zero, bytesNat_zero,
      Int.toNat_zero, Int.pow_zero, Int.sub_self, Int.emod_one]
    exact ⟨fun h => .ternary h.1 h.2, fun h => by cases h; exact ⟨by assumption, by assumption⟩⟩
  | lpm id n w =>
    cases hv
    dsimp only at hz
    subst hz
    simp only [convert, exactMatch, reduceCtorEq, if_false, Value.lpm.injEq, hm, Int.natCast_eq_zero, bytesNat_zero]
    exact ⟨fun h => by obtain ⟨h1, rfl⟩ := h; exact .lpm h1, fun h => by cases h; exact ⟨by assumption, rfl⟩⟩
  | range id n w =>
    cases hv
    dsimp only at hz
    subst hz
    simp only [convert, exactMatch, reduceCtorEq, if_false, Value.range.injEq, hm, Int.natCast_eq_zero, bytesNat_zero]
    exact ⟨fun h => .range h.1 h.2, fun h => by cases h; exact ⟨by assumption, by assumption⟩⟩
  | optional id n w =>
    cases hv with
    | optional w v =>
      dsimp only at hz
      have : w = 0 := by omega
      subst this
      have hm : c % 2 ^ ((0 : Nat) : Int).toNat = 0 := by simp
      simp only [convert, exactMatch, reduceCtorEq, if_false, Value.ternary.injEq, hm, Int.natCast_eq_zero, bytesNat_zero]
      exact ⟨fun h => .optional h.1, fun h => by cases h; exact ⟨by assumption, by simp⟩⟩
  | other => cases hv

theorem wildcard_zero {f : MatchField} {ki : VarInfo} (h : KeyDecl f ki) (hz : f.bitwidth = 0) {v : Value}
    (hv : WildcardOf ki.ty v) (c : Int) : v = convert .arbitraryInt ki.ty (.int c) := by
  cases h <;> dsimp only at hz <;> cases hv <;> (try subst hz) <;>
    simp only [convert, exactMatch, reduceCtorEq, if_false, Value.ternary.injEq, Value.lpm.injEq, Value.range.injEq]
  case range.range =>
    have : ‹Nat› = 0 := by omega
    subst this
    simp
  all_goals simp

theorem keyValue_zero {f : MatchField} {ki : VarInfo} (h : KeyDecl f ki) (hz : f.bitwidth = 0) {entry : RtEntry}
    {v : Value} (hv : KeyValue entry ki v) (hf : (entry.matches_.map FieldMatch.fieldId).Nodup) (c : Int) :
    v = convert .arbitraryInt ki.ty (.int c) ↔ OmittedOrZero f entry := by
  have hid : ki.id = f.id := by cases h <;> rfl
  rcases hv with ⟨m, hm, h1, h2⟩ | ⟨h1, h2⟩
  · rw [denotes_zero h hz h2]
    constructor
    · intro h3 m' hm' h4
      rwa [inj_of_nodup_map hf hm' hm (h4.trans (hid.symm.trans h1.symm))]
    · exact fun h3 => h3 m hm (h1.trans hid)
  · exact ⟨fun _ m' hm' h3 => absurd (h3.trans hid.symm) (h1 m' hm'), fun _ => wildcard_zero h hz h2 c⟩

theorem widthless_reason {sys : Sys} {p : P4Info} {ci : ConstraintInfo} (h : p4ToConstraintInfo sys p = .ok ci)
    (hw : NonNegProgram p) {d : TableDecl} (hd : d ∈ p.tables) {vs : List VarInfo} (hv : Each KeyDecl d.matchFields vs)
    {entry : RtEntry} (hfit : EntryFits vs entry) (hid : entry.tableId = d.preamble.id) (ha : entry.action = none)
    {f : MatchField} (hf : f ∈ d.matchFields) (hz : f.bitwidth = 0)
    {e : SExpr} {c : Int} (hl : IsInteger e c) (hs : TableSays sys.inetPton6 d (.cmp .eq (.key f.name) e)) :
    reasonEntryViolatesConstraint entry ci = .ok [] ↔ OmittedOrZero f entry := by
  have hdist := declared_distinct h hd hv
  obtain ⟨ki, hki, hfk⟩ := each_mem_left hv f hf
  have hname := (keyDecl_name hfk).1
  have hsig := keySig_of_mem hdist hki
  rw [hname] at hsig
  obtain ⟨ρ, hρ⟩ := means_exists h hd hv hfit
  obtain ⟨v, hval⟩ := hasValue hdist.1 hfit hki
  have hρv : ρ.key f.name = some v := (hρ.key _ _).2 ⟨ki, hki, hname, hval⟩
  have hsup : Supported ki.ty := by
    cases says_typed hv hs with
    | cmp h1 _ _ _ =>
      cases h1 with
      | key h2 h3 => rw [hsig] at h2; cases h2; exact h3
  rw [← keyValue_zero hfk hz hval hfit.once, ← equals_iff hsig hρv hl (join_key hfk hsup),
    reason_value h hw hd hv hfit hid ha hs hρ]

theorem integer_number {vars : SExpr → Prop} {e : SExpr} {c : Int} (h : IsInteger e c) : IsNumber vars e := by
  induction h with
  | int c => exact .int c
  | neg _ ih => exact .neg ih

theorem integer_numberIn {fs : List ParamDecl} {a : RtAction} {e : SExpr} {c : Int} (h : IsInteger e c) :
    NumberIn (ArgNumber fs a) e none c := by
  induction h with
  | int c => exact .int c
  | neg _ ih => exact .neg ih

theorem integer_width {fs : List ParamDecl} {a : RtAction} {e : SExpr} {c : Int} (h : IsInteger e c) {w : Option Int} {z : Int}
    (hn : NumberIn (ArgNumber fs a) e w z) : w = none := by
  cases h with
  | int c => cases hn with
    | int => rfl
    | given hn => cases hn
  | neg _ => cases hn with
    | given hn => cases hn
    | neg _ => rfl

theorem argument_zero {sys : Sys} {p : P4Info} {ci : ConstraintInfo} (h : p4ToConstraintInfo sys p = .ok ci)
    {d : ActionDecl} (hd : d ∈ p.actions) {f : ParamDecl} (hf : f ∈ d.params) (hn : f.typeName = [])
    (hz : f.bitwidth = 0) {e : SExpr} {c : Int} (he : IsInteger e c) {vs : List VarInfo} (hv : Each ParamIs d.params vs)
    {a : RtAction} (hfit : ActionFits vs a) :
    (∃ w m w' n, NumberIn (ArgNumber d.params a) (.param f.name) w m ∧ NumberIn (ArgNumber d.params a) e w' n ∧
      Cmp.eq.ofInts (reduced w w' m) (reduced w' w n)) ↔ ∀ v, (f.id, v) ∈ a.params → AllZero v := by
  have hdist := args_distinct h hd hv
  constructor
  · rintro ⟨w, m, w', n, h1, h2, h3⟩ v hm
    cases integer_width he h2
    generalize hx : SExpr.param f.name = x at h1
    cases h1 with
    | int => cases hx
    | neg => cases hx
    | given h1 =>
      cases h1 with
      | @param f' v' hf' hty hm' =>
        injection hx with hx
        obtain ⟨pi, hpi, hp⟩ := each_mem_left hv f hf
        obtain ⟨pi', hpi', hp'⟩ := each_mem_left hv f' hf'
        have e1 : pi = pi' := inj_of_nodup_map hdist.2 hpi hpi' (by cases hp <;> cases hp' <;> exact hx)
        have e2 : f.id = f'.id ∧ f.bitwidth = f'.bitwidth := by
          subst e1
          cases hp with
          | named => exact absurd hn (by assumption)
          | bits => cases hp'; exact ⟨rfl, rfl⟩
        rw [← e2.1] at hm'
        have e3 : (f.id, v) = (f.id, v') := inj_of_nodup_map hfit.once hm hm' rfl
        injection e3 with _ e3
        subst e3
        rw [← e2.2, hz] at h3
        have : (bytesNat v : Int) = n % 2 ^ (0 : Int).toNat := h3
        rw [Int.toNat_zero, Int.pow_zero, Int.emod_one] at this
        exact bytesNat_zero.1 (by omega)
  · intro h1
    obtain ⟨pi, hpi, hp⟩ := each_mem_left hv f hf
    obtain ⟨v, hm⟩ := hfit.complete pi hpi
    have e1 : pi.id = f.id := by cases hp <;> rfl
    rw [e1] at hm
    refine ⟨_, _, _, _, .given (.param hf hn hm), integer_numberIn he, ?_⟩
    show (bytesNat v : Int) = c % 2 ^ f.bitwidth.toNat
    rw [hz, bytesNat_zero.2 (h1 v hm)]
    simp

end P4C
