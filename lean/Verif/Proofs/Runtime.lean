import Verif.Spec.Runtime
import Verif.Proofs.SolveSigned

/-
Lemmas for C100.
-/

namespace P4C

open Spec

theorem runtime_of_canonical {f : MatchField} {ki : VarInfo} {v : MatchVal} (hk : KeyDecl f ki) (h : CanonicalMatch ki.ty v) :
    RuntimeMatch f v := by
  cases hk with
  | exact => cases h with | exact h1 h2 => exact .exact _ _ ⟨h1, h2⟩
  | ternary =>
    cases h with
    | @ternary w a b h1 h2 h3 h4 h5 =>
      refine .ternary _ _ ⟨h1, ?_⟩ ⟨h2, h3⟩ h4 h5
      have := Nat.and_le_right (n := bytesNat a) (m := bytesNat b)
      simp only [Int.toNat_natCast]
      omega
  | lpm =>
    cases h with
    | @lpm w p v h1 h2 h3 h4 h5 =>
      refine .lpm _ _ ⟨h1, h2⟩ (by omega) (by omega) ?_
      rw [show ((w : Int) - (p : Int)).toNat = w - p by omega]
      exact h5
  | range => cases h
  | optional => cases h with | optional h1 h2 => exact .optional _ _ ⟨h1, h2⟩
  | other => cases h

theorem canonical_of_runtime {f : MatchField} {ki : VarInfo} {v : MatchVal} (hk : KeyDecl f ki) (hs : SymSupported ki.ty)
    (h : RuntimeMatch f v) : CanonicalMatch ki.ty v := by
  cases h with
  | exact _ _ h1 =>
    cases hk; cases hs; rename_i hw
    obtain ⟨w, rfl⟩ := Int.eq_ofNat_of_zero_le (Int.le_of_lt hw)
    exact .exact h1.1 h1.2
  | ternary _ _ h1 h2 h3 h4 =>
    cases hk; cases hs; rename_i hw
    obtain ⟨w, rfl⟩ := Int.eq_ofNat_of_zero_le (Int.le_of_lt hw)
    exact .ternary h1.1 h2.1 h2.2 h3 h4
  | lpm _ _ h1 h2 h3 h4 =>
    cases hk; cases hs; rename_i p _ w hw
    obtain ⟨w, rfl⟩ := Int.eq_ofNat_of_zero_le (Int.le_of_lt hw)
    obtain ⟨p, rfl⟩ := Int.eq_ofNat_of_zero_le (Int.le_of_lt h2)
    rw [show ((w : Int) - (p : Int)).toNat = w - p by omega] at h4
    exact .lpm h1.1 h1.2 (by omega) (by omega) h4
  | optional _ _ h1 =>
    cases hk; cases hs; rename_i hw
    obtain ⟨w, rfl⟩ := Int.eq_ofNat_of_zero_le (Int.le_of_lt hw)
    exact .optional h1.1 h1.2
  | range => cases hk; cases hs

section
variable {d : TableDecl} {vs : List VarInfo} (hv : Each KeyDecl d.matchFields vs)

include hv in
theorem withPriority_declared :
    WithPriority vs ↔ ∃ f ∈ d.matchFields, f.kind = .matchType .ternary ∨ f.kind = .matchType .optional := by
  constructor
  · rintro ⟨ki, hki, w, hw⟩
    obtain ⟨f, hf, hk⟩ := each_mem hv ki hki
    refine ⟨f, hf, ?_⟩
    cases hk <;> simp at hw ⊢
  · rintro ⟨f, hf, hw⟩
    obtain ⟨ki, hki, hk⟩ := each_mem_left hv f hf
    refine ⟨ki, hki, f.bitwidth, ?_⟩
    cases hk <;> simp at hw ⊢

include hv in
/-- An entry in canonical form is well-formed unless an exact key is skipped or the table owes its priorities to range keys. -/
theorem canonicalFor_runtime (hd : Distinct vs) {skip : Str → Bool} {entry : RtEntry} (hc : CanonicalFor d skip entry) :
    RuntimeEntry d entry ↔ (∀ f ∈ d.matchFields, f.kind = .matchType .exact → skip f.name = false) ∧
      ((∃ f ∈ d.matchFields, f.kind = .matchType .range) →
        ∃ f ∈ d.matchFields, f.kind = .matchType .ternary ∨ f.kind = .matchType .optional) := by
  obtain ⟨ht, vs', hv', hc⟩ := hc
  cases keys_same hv hv'
  have hp := withPriority_declared hv
  constructor
  · intro hr
    refine ⟨fun f hf hx => ?_, fun ⟨f, hf, hx⟩ => ?_⟩
    · obtain ⟨m, hm, hid⟩ := hr.exact f hf hx
      obtain ⟨ki, hki, hsk, hid', _⟩ := hc.keys m hm
      obtain ⟨ki', hki', hk⟩ := each_mem_left hv f hf
      have : ki' = ki := inj_of_nodup_map hd.1 hki' hki (by cases hk <;> simp_all)
      subst this
      cases hk <;> exact hsk
    · rcases hc.priority with ⟨h1, _⟩ | ⟨h1, h2⟩
      · exact hp.1 h1
      · rcases hr.priority with ⟨_, h3, _⟩ | ⟨h3, _⟩
        · omega
        · exact absurd ⟨f, hf, .inr (.inl hx)⟩ h3
  · rintro ⟨h1, h2⟩
    refine ⟨ht, fun m hm => ?_, hc.once, fun f hf hx => ?_, ?_⟩
    · obtain ⟨ki, hki, _, hid, hval⟩ := hc.keys m hm
      obtain ⟨f, hf, hk⟩ := each_mem hv ki hki
      exact ⟨f, hf, by rw [hid]; cases hk <;> rfl, runtime_of_canonical hk hval⟩
    · obtain ⟨ki, hki, hk⟩ := each_mem_left hv f hf
      have hsk := h1 f hf hx
      have hid : ki.id = f.id ∧ ki.name = f.name ∧ ki.ty = .exact f.bitwidth := by cases hk <;> simp_all
      obtain ⟨m, hm, hm'⟩ := hc.exact ki hki _ hid.2.2 (hid.2.1 ▸ hsk)
      exact ⟨m, hm, hm'.trans hid.1⟩
    · rcases hc.priority with ⟨h3, h4⟩ | ⟨h3, h4⟩
      · obtain ⟨f, hf, hx⟩ := hp.1 h3
        exact .inl ⟨⟨f, hf, hx.elim .inl (fun h => .inr (.inr h))⟩, h4⟩
      · refine .inr ⟨fun ⟨f, hf, hx⟩ => h3 (hp.2 ?_), h4⟩
        rcases hx with hx | hx | hx
        · exact ⟨f, hf, .inl hx⟩
        · exact h2 ⟨f, hf, hx⟩
        · exact ⟨f, hf, .inr hx⟩

include hv in
/-- If all kinds of keys are supported, the well-formed entries are those in canonical form. -/
theorem runtime_canonicalFor (hs : AllSupported d fun _ => false) {entry : RtEntry} (hr : RuntimeEntry d entry) :
    CanonicalFor d (fun _ => false) entry := by
  have hp := withPriority_declared hv
  have hs : ∀ ki ∈ vs, SymSupported ki.ty := fun ki hki => (hs vs hv ki hki).resolve_left (by simp)
  refine ⟨hr.table, vs, hv, fun m hm => ?_, hr.once, fun ki hki w hw _ => ?_, ?_⟩
  · obtain ⟨f, hf, hid, hval⟩ := hr.fields m hm
    obtain ⟨ki, hki, hk⟩ := each_mem_left hv f hf
    exact ⟨ki, hki, rfl, by rw [← hid]; cases hk <;> rfl, canonical_of_runtime hk (hs ki hki) hval⟩
  · obtain ⟨f, hf, hk⟩ := each_mem hv ki hki
    obtain ⟨m, hm, hm'⟩ := hr.exact f hf (by cases hk <;> simp_all)
    exact ⟨m, hm, hm'.trans (by cases hk <;> rfl)⟩
  · have hn : NeedsPriority d ↔ WithPriority vs := by
      rw [hp]
      constructor
      · rintro ⟨f, hf, hx | hx | hx⟩
        · exact ⟨f, hf, .inl hx⟩
        · obtain ⟨ki, hki, hk⟩ := each_mem_left hv f hf
          have := hs ki hki
          cases hk <;> simp at hx
          cases this
        · exact ⟨f, hf, .inr hx⟩
      · rintro ⟨f, hf, hx⟩
        exact ⟨f, hf, hx.elim .inl (fun h => .inr (.inr h))⟩
    have := hr.priority
    rw [hn] at this
    exact this

end

end P4C
