import Verif.Spec.Skipped
import Verif.Proofs.Moved
import Verif.Proofs.Independent
import Verif.Proofs.Evolve

/-
Lemmas for C99: a constraint that does not mention skipped keys says the same without them.
-/

namespace P4C

open Spec

theorem namesIn_congr {K K' A A' : Str → Prop} (hK : ∀ n, K n ↔ K' n) (hA : ∀ n, A n ↔ A' n) : ∀ s : SExpr,
    NamesIn K A s ↔ NamesIn K' A' s
  | .key n => hK n
  | .attr n => hA n
  | .param _ => Iff.rfl
  | .not e | .neg e | .field e _ => namesIn_congr hK hA e
  | .cmp _ l r | .conn _ l r => and_congr (namesIn_congr hK hA l) (namesIn_congr hK hA r)
  | .bool _ | .int _ => Iff.rfl

theorem namesIn_about {K A : Str → Prop} {n : Str} : ∀ {s : SExpr}, NamesIn K A s → AboutKey n s → K n
  | .key _, h, e => by cases e; exact h
  | .not e, h, g | .neg e, h, g | .field e _, h, g => namesIn_about (s := e) h g
  | .cmp _ _ _, ⟨h1, h2⟩, g | .conn _ _ _, ⟨h1, h2⟩, g => g.elim (namesIn_about h1) (namesIn_about h2)

theorem hasTy_agree {Γ Γ' : Sig} {s : SExpr} {t : Ty} (h : HasTy Γ s t) (hk : ∀ n, AboutKey n s → Γ.key n = Γ'.key n)
    (hp : ∀ n, Γ.param n = Γ'.param n) : HasTy Γ' s t := by
  induction h with
  | bool b => exact .bool b
  | int z => exact .int z
  | key h1 h2 => exact .key (hk _ rfl ▸ h1) h2
  | param h1 h2 => exact .param (hp _ ▸ h1) h2
  | priority => exact .priority
  | not _ ih => exact .not (ih hk)
  | neg _ ih => exact .neg (ih hk)
  | conn _ _ ih1 ih2 => exact .conn (ih1 fun n hn => hk n (.inl hn)) (ih2 fun n hn => hk n (.inr hn))
  | cmp _ _ hj hc ih1 ih2 => exact .cmp (ih1 fun n hn => hk n (.inl hn)) (ih2 fun n hn => hk n (.inr hn)) hj hc
  | field _ hf ih => exact .field (ih hk) hf

theorem signedMeans_agree {Γ Γ' : Sig} {ρ ρ' : Env} {s : SExpr} {t : Ty} {v : Value} (h : SignedMeans Γ ρ s t v)
    (hk : ∀ n, AboutKey n s → Γ.key n = Γ'.key n ∧ ρ.key n = ρ'.key n) (hpr : ρ.priority = ρ'.priority)
    (hg : ∀ n, Γ.param n = Γ'.param n) (hparam : ∀ n, ρ.param n = ρ'.param n) : SignedMeans Γ' ρ' s t v := by
  induction h with
  | bool b => exact .bool b
  | int z => exact .int z
  | key h1 h2 => exact .key ((hk _ rfl).1 ▸ h1) ((hk _ rfl).2 ▸ h2)
  | param h1 h2 => exact .param (hg _ ▸ h1) (hparam _ ▸ h2)
  | priority h1 => exact .priority (hpr ▸ h1)
  | not _ ih => exact .not (ih hk)
  | neg _ ih => exact .neg (ih hk)
  | conn _ _ ih1 ih2 => exact .conn (ih1 fun n hn => hk n (.inl hn)) (ih2 fun n hn => hk n (.inr hn))
  | cmp _ _ hj hc ih1 ih2 =>
    exact .cmp (ih1 fun n hn => hk n (.inl hn)) (ih2 fun n hn => hk n (.inr hn)) hj hc
  | field _ hf hv ih => exact .field (ih hk) hf hv

theorem hasTy_about {Γ : Sig} {s : SExpr} {t : Ty} (h : HasTy Γ s t) {n : Str} (hn : AboutKey n s) : ∃ u, Γ.key n = some u := by
  induction h with
  | key h1 h2 => cases hn; exact ⟨_, h1⟩
  | not _ ih | neg _ ih | field _ _ ih => exact ih hn
  | conn _ _ ih1 ih2 | cmp _ _ _ _ ih1 ih2 => exact hn.elim ih1 ih2
  | _ => cases hn

section
variable {skip : Str → Bool} {d : TableDecl} {vs : List VarInfo} (hv : Each KeyDecl d.matchFields vs)

theorem each_filter {α β : Type} {R : α → β → Prop} {p : α → Bool} {q : β → Bool} (hR : ∀ a b, R a b → p a = q b) {as : List α}
    {bs : List β} (h : Each R as bs) : Each R (as.filter p) (bs.filter q) := by
  induction h with
  | nil => exact .nil
  | @cons a b _ _ h1 _ ih =>
    rw [List.filter_cons, List.filter_cons, hR a b h1]
    split
    · exact .cons h1 ih
    · exact ih

include hv in
theorem unskipped_keys : Each KeyDecl (unskipped skip d).matchFields (vs.filter fun v => !skip v.name) :=
  each_filter (fun a b h => by rw [(keyDecl_ids h).2]) hv

theorem unskipped_sig (n : Str) : (keySig (vs.filter fun v => !skip v.name)).key n = if skip n then none else (keySig vs).key n := by
  simp only [keySig, List.find?_filter]
  split
  · rename_i h
    rw [List.find?_eq_none.2]
    · rfl
    · intro v _
      simp only [Bool.not_eq_true', decide_eq_true_eq, not_and]
      rintro h1 rfl
      simp_all
  · rename_i h
    congr 2
    funext v
    by_cases hn : v.name = n
    · subst hn; simp_all
    · simp [hn]

theorem unskipped_sig_extends (n : Str) (t : Ty) (h : (keySig (vs.filter fun v => !skip v.name)).key n = some t) :
    (keySig vs).key n = some t := by
  rw [unskipped_sig] at h
  split at h
  · cases h
  · exact h

theorem each_right {α β : Type} {R : α → β → Prop} {as : List α} {bs : List β} (h : Each R as bs) : ∀ b ∈ bs, ∃ a ∈ as, R a b := by
  induction h with
  | nil => intro v hv; cases hv
  | cons h1 _ ih =>
    intro v hv
    rcases List.mem_cons.1 hv with rfl | hv
    · exact ⟨_, List.mem_cons_self, h1⟩
    · obtain ⟨f, g1, g2⟩ := ih v hv
      exact ⟨f, List.mem_cons_of_mem _ g1, g2⟩

theorem each_left {α β : Type} {R : α → β → Prop} {as : List α} {bs : List β} (h : Each R as bs) : ∀ a ∈ as, ∃ b ∈ bs, R a b := by
  induction h with
  | nil => intro v hv; cases hv
  | cons h1 _ ih =>
    intro v hv
    rcases List.mem_cons.1 hv with rfl | hv
    · exact ⟨_, List.mem_cons_self, h1⟩
    · obtain ⟨f, g1, g2⟩ := ih v hv
      exact ⟨f, List.mem_cons_of_mem _ g1, g2⟩

include hv in
theorem not_keepsPriority (hp : ¬ KeepsPriority skip d) :
    WithPriority vs ∧ ¬ WithPriority (vs.filter fun v => !skip v.name) := by
  simp only [KeepsPriority, Classical.not_imp] at hp
  obtain ⟨⟨f, h1, h2⟩, h3⟩ := hp
  constructor
  · obtain ⟨v, g6, g7⟩ := each_left hv f h1
    refine ⟨v, g6, ?_⟩
    rcases h2 with h2 | h2 <;> cases g7 <;> simp_all
  · rintro ⟨ki, g1, w, g2⟩
    obtain ⟨g1, g3⟩ := List.mem_filter.1 g1
    obtain ⟨f', g4, g5⟩ := each_right hv ki g1
    refine h3 ⟨f', g4, ?_, by rw [← (keyDecl_ids g5).2]; simpa using g3⟩
    rcases g2 with g2 | g2 <;> cases g5 <;> simp_all

include hv in
theorem keepsPriority_iff (hp : KeepsPriority skip d) : WithPriority (vs.filter fun v => !skip v.name) ↔ WithPriority vs := by
  constructor
  · rintro ⟨ki, h1, h2⟩
    exact ⟨ki, (List.mem_filter.1 h1).1, h2⟩
  · rintro ⟨ki, h1, w, h2⟩
    obtain ⟨f, g1, g2⟩ := each_right hv ki h1
    obtain ⟨f', g3, g4, g5⟩ := hp ⟨f, g1, by rcases h2 with h2 | h2 <;> cases g2 <;> simp_all⟩
    obtain ⟨v, g6, g7⟩ := each_left hv f' g3
    refine ⟨v, List.mem_filter.2 ⟨g6, by rw [(keyDecl_ids g7).2, g5]; rfl⟩, ?_⟩
    rcases g4 with g4 | g4 <;> cases g7 <;> simp_all

theorem canonicalOver_unskipped (hp : WithPriority (vs.filter fun v => !skip v.name) ↔ WithPriority vs) (e : RtEntry) :
    CanonicalOver vs skip e ↔ CanonicalOver (vs.filter fun v => !skip v.name) (fun _ => false) e := by
  constructor
  · rintro ⟨h1, h2, h3, h4⟩
    refine ⟨fun m hm => ?_, h2, fun ki hk w hw _ => ?_, by rw [hp]; exact h4⟩
    · obtain ⟨ki, g1, g2, g3⟩ := h1 m hm
      exact ⟨ki, List.mem_filter.2 ⟨g1, by simp [g2]⟩, rfl, g3⟩
    · obtain ⟨g1, g2⟩ := List.mem_filter.1 hk
      exact h3 ki g1 w hw (by simpa using g2)
  · rintro ⟨h1, h2, h3, h4⟩
    refine ⟨fun m hm => ?_, h2, fun ki hk w hw hs => ?_, by rw [hp] at h4; exact h4⟩
    · obtain ⟨ki, g1, _, g3⟩ := h1 m hm
      obtain ⟨g1, g2⟩ := List.mem_filter.1 g1
      exact ⟨ki, g1, by simpa using g2, g3⟩
    · exact h3 ki (List.mem_filter.2 ⟨hk, by simp [hs]⟩) w hw rfl

theorem distinct_filter {p : VarInfo → Bool} (hd : Distinct vs) : Distinct (vs.filter p) :=
  ⟨hd.1.sublist (List.filter_sublist.map _), hd.2.sublist (List.filter_sublist.map _)⟩

include hv in
theorem mentionable_unskipped (hp : KeepsPriority skip d) (s : SExpr) :
    Mentionable d skip s ↔ Mentionable (unskipped skip d) (fun _ => false) s := by
  have key : NamesIn (fun n => ∃ ki ∈ vs, ki.name = n ∧ skip n = false) (fun a => a = c!"priority" ∧ WithPriority vs) s ↔
      NamesIn (fun n => ∃ ki ∈ vs.filter (fun v => !skip v.name), ki.name = n ∧ false = false)
        (fun a => a = c!"priority" ∧ WithPriority (vs.filter fun v => !skip v.name)) s := by
    refine namesIn_congr (fun n => ?_) (fun n => by rw [keepsPriority_iff hv hp]) s
    simp only [List.mem_filter, Bool.not_eq_true', and_true]
    constructor
    · rintro ⟨ki, h1, rfl, h2⟩
      exact ⟨ki, ⟨h1, h2⟩, rfl⟩
    · rintro ⟨ki, ⟨h1, h2⟩, rfl⟩
      exact ⟨ki, h1, rfl, h2⟩
  constructor
  · rintro ⟨vs', h1, h2⟩
    cases each_unique (R := KeyDecl) (fun _ _ _ => keyDecl_unique) h1 hv
    exact ⟨_, unskipped_keys hv, key.1 h2⟩
  · rintro ⟨vs', h1, h2⟩
    cases each_unique (R := KeyDecl) (fun _ _ _ => keyDecl_unique) h1 (unskipped_keys hv)
    exact ⟨_, hv, key.2 h2⟩

theorem mentionable_about {s : SExpr} (hm : Mentionable d skip s) {n : Str} (hn : AboutKey n s) : skip n = false := by
  obtain ⟨vs', h1, h2⟩ := hm
  obtain ⟨_, _, _, h3⟩ := namesIn_about h2 hn
  exact h3

/-- Typing without the skipped keys. -/
theorem hasTy_unskipped {s : SExpr} {t : Ty} (hm : ∀ n, AboutKey n s → skip n = false) :
    HasTy (keySig vs) s t ↔ HasTy (keySig (vs.filter fun v => !skip v.name)) s t :=
  ⟨fun h => hasTy_agree h (fun n hn => by rw [unskipped_sig, if_neg (by simp [hm n hn])]) fun _ => rfl,
    fun h => hasTy_extends unskipped_sig_extends (fun _ _ h => h) h⟩

include hv in
theorem textSays_unskipped {pton : Str → Option Bytes} {text : Str} {s : SExpr} :
    (TextSays pton (unskipped skip d) text s → TextSays pton d text s) ∧
    ((∀ n, AboutKey n s → skip n = false) → TextSays pton d text s → TextSays pton (unskipped skip d) text s) := by
  constructor
  · rintro ⟨vs', ts, e, h1, h2, h3, h4, h5⟩
    cases each_unique (R := KeyDecl) (fun _ _ _ => keyDecl_unique) h1 (unskipped_keys hv)
    exact ⟨vs, ts, e, hv, h2, h3, h4, hasTy_extends unskipped_sig_extends (fun _ _ h => h) h5⟩
  · rintro hm ⟨vs', ts, e, h1, h2, h3, h4, h5⟩
    cases each_unique (R := KeyDecl) (fun _ _ _ => keyDecl_unique) h1 hv
    exact ⟨_, ts, e, unskipped_keys hv, h2, h3, h4, (hasTy_unskipped hm).1 h5⟩

include hv in
theorem tableSays_unskipped {pton : Str → Option Bytes} {s : SExpr} :
    (TableSays pton (unskipped skip d) s → TableSays pton d s) ∧
    ((∀ n, AboutKey n s → skip n = false) → TableSays pton d s → TableSays pton (unskipped skip d) s) := by
  constructor
  · rintro ⟨vs', src, e, h1, h2⟩
    cases each_unique (R := KeyDecl) (fun _ _ _ => keyDecl_unique) h1 (unskipped_keys hv)
    exact ⟨vs, src, e, hv, readConstraint_extends unskipped_sig_extends (fun _ _ h => h) h2⟩
  · rintro hm ⟨vs', src, e, h1, h2⟩
    cases each_unique (R := KeyDecl) (fun _ _ _ => keyDecl_unique) h1 hv
    cases h2 with
    | some g1 g2 g3 g4 g5 => exact ⟨_, src, e, unskipped_keys hv, .some g1 g2 g3 g4 ((hasTy_unskipped hm).1 g5)⟩

include hv in
theorem allSupported_unskipped : AllSupported d skip ↔ AllSupported (unskipped skip d) (fun _ => false) := by
  constructor
  · intro h vs' h1 ki hk
    cases each_unique (R := KeyDecl) (fun _ _ _ => keyDecl_unique) h1 (unskipped_keys hv)
    obtain ⟨g1, g2⟩ := List.mem_filter.1 hk
    rcases h vs hv ki g1 with g | g
    · simp [g] at g2
    · exact .inr g
  · intro h vs' h1 ki hk
    cases each_unique (R := KeyDecl) (fun _ _ _ => keyDecl_unique) h1 hv
    cases hs : skip ki.name with
    | true => exact .inl rfl
    | false =>
      rcases h _ (unskipped_keys hv) ki (List.mem_filter.2 ⟨hk, by simp [hs]⟩) with g | g
      · cases g
      · exact .inr g

theorem solvable_unskipped (h : Solvable d skip) : Solvable (unskipped skip d) (fun _ => false) :=
  ⟨fun _ _ _ _ h => by (cases h), fun f hf => h.noNul f (List.mem_filter.1 hf).1,
    fun f hf g hg => h.noMask f (List.mem_filter.1 hf).1 g (List.mem_filter.1 hg).1,
    fun f hf => h.widths f (List.mem_filter.1 hf).1⟩

theorem keysNameable_unskipped (h : KeysNameable d skip) : KeysNameable (unskipped skip d) (fun _ => false) :=
  fun f hf _ => by
    obtain ⟨h1, h2⟩ := List.mem_filter.1 hf
    exact h f h1 (by simpa using h2)

include hv in
theorem canonicalFor_unskipped (hp : KeepsPriority skip d) (e : RtEntry) :
    CanonicalFor d skip e ↔ CanonicalFor (unskipped skip d) (fun _ => false) e := by
  constructor
  · rintro ⟨h1, vs', h2, h3⟩
    cases each_unique (R := KeyDecl) (fun _ _ _ => keyDecl_unique) h2 hv
    exact ⟨h1, _, unskipped_keys hv, (canonicalOver_unskipped (keepsPriority_iff hv hp) e).1 h3⟩
  · rintro ⟨h1, vs', h2, h3⟩
    cases each_unique (R := KeyDecl) (fun _ _ _ => keyDecl_unique) h2 (unskipped_keys hv)
    exact ⟨h1, _, hv, (canonicalOver_unskipped (keepsPriority_iff hv hp) e).2 h3⟩

include hv in
theorem signedTrueOf_unskipped (hdis : Distinct vs) (hs : Solvable d skip) (hsup : AllSupported d skip) (hp : KeepsPriority skip d)
    {e : RtEntry} (hc : CanonicalFor d skip e) {s : SExpr} (hm : ∀ n, AboutKey n s → skip n = false) :
    SignedTrueOf d e s ↔ SignedTrueOf (unskipped skip d) e s := by
  have hc' := (canonicalFor_unskipped hv hp e).1 hc
  have hs' := solvable_unskipped hs
  have hsup' := (allSupported_unskipped hv).1 hsup
  obtain ⟨_, vs1, c1, c2⟩ := hc
  cases each_unique (R := KeyDecl) (fun _ _ _ => keyDecl_unique) c1 hv
  obtain ⟨_, vs2, c3, c4⟩ := hc'
  have hv' := unskipped_keys (skip := skip) hv
  cases each_unique (R := KeyDecl) (fun _ _ _ => keyDecl_unique) c3 hv'
  have f1 := canonical_fits c2 (hs.omittable _ hv) (hsup _ hv)
  have f2 := canonical_fits c4 (hs'.omittable _ hv') (hsup' _ hv')
  obtain ⟨ρ, r1⟩ := entryMeans_some hdis f1
  obtain ⟨ρ', r2⟩ := entryMeans_some (distinct_filter hdis) f2
  have same : ∀ {r r' : Env}, EntryMeans vs e r → EntryMeans (vs.filter fun v => !skip v.name) e r' → ∀ n, AboutKey n s →
      (keySig vs).key n = (keySig (vs.filter fun v => !skip v.name)).key n ∧ r.key n = r'.key n := by
    intro r r' g1 g2 n hn
    refine ⟨by rw [unskipped_sig, if_neg (by simp [hm n hn])], ?_⟩
    have key : ∀ v, r.key n = some v ↔ r'.key n = some v := by
      intro v
      rw [g1.key, g2.key]
      constructor
      · rintro ⟨ki, k1, rfl, k2⟩
        exact ⟨ki, List.mem_filter.2 ⟨k1, by simp [hm _ hn]⟩, rfl, k2⟩
      · rintro ⟨ki, k1, k2⟩
        exact ⟨ki, (List.mem_filter.1 k1).1, k2⟩
    exact Option.ext key
  constructor
  · rintro ⟨vs3, r, k1, _, k3, k4⟩
    cases each_unique (R := KeyDecl) (fun _ _ _ => keyDecl_unique) k1 hv
    exact ⟨_, ρ', hv', f2, r2, signedMeans_agree k4 (same k3 r2) (by rw [k3.priority, r2.priority]) (fun _ => rfl)
      fun n => by rw [k3.param, r2.param]⟩
  · rintro ⟨vs3, r, k1, _, k3, k4⟩
    cases each_unique (R := KeyDecl) (fun _ _ _ => keyDecl_unique) k1 hv'
    exact ⟨_, ρ, hv, f1, r1, signedMeans_agree k4 (fun n hn => ⟨(same r1 k3 n hn).1.symm, (same r1 k3 n hn).2.symm⟩)
      (by rw [k3.priority, r1.priority]) (fun _ => rfl) fun n => by rw [k3.param, r1.param]⟩

include hv in
theorem solution_unskipped {pton : Str → Option Bytes} (hdis : Distinct vs) (hs : Solvable d skip) (hsup : AllSupported d skip)
    (hp : KeepsPriority skip d) (ht : ∀ s, TableSays pton d s → Mentionable d skip s) {texts : List Str}
    (htx : ∀ t ∈ texts, ∀ s, TextSays pton d t s → Mentionable d skip s) (e : RtEntry) :
    SignedSolution pton d skip texts e ↔ SignedSolution pton (unskipped skip d) (fun _ => false) texts e := by
  constructor
  · rintro ⟨h1, h2, h3⟩
    refine ⟨(canonicalFor_unskipped hv hp e).1 h1, h2.imp id ?_, fun t hm => ?_⟩
    · rintro ⟨s, g1, g2⟩
      have ha := fun n => mentionable_about (ht s g1) (n := n)
      exact ⟨s, (tableSays_unskipped hv).2 ha g1, (signedTrueOf_unskipped hv hdis hs hsup hp h1 ha).1 g2⟩
    · obtain ⟨s, g1, g2⟩ := h3 t hm
      have ha := fun n => mentionable_about (htx t hm s g1) (n := n)
      exact ⟨s, (textSays_unskipped hv).2 ha g1, (signedTrueOf_unskipped hv hdis hs hsup hp h1 ha).1 g2⟩
  · rintro ⟨h1, h2, h3⟩
    have h1 := (canonicalFor_unskipped hv hp e).2 h1
    refine ⟨h1, h2.imp id ?_, fun t hm => ?_⟩
    · rintro ⟨s, g1, g2⟩
      have g1 := (tableSays_unskipped hv).1 g1
      have ha := fun n => mentionable_about (ht s g1) (n := n)
      exact ⟨s, g1, (signedTrueOf_unskipped hv hdis hs hsup hp h1 ha).2 g2⟩
    · obtain ⟨s, g1, g2⟩ := h3 t hm
      have g1 := (textSays_unskipped hv).1 g1
      have ha := fun n => mentionable_about (htx t hm s g1) (n := n)
      exact ⟨s, g1, (signedTrueOf_unskipped hv hdis hs hsup hp h1 ha).2 g2⟩

include hv in
/-- Without its skipped keys, the table is well formed if and only if its constraint does not mention them. -/
theorem goodTable_unskipped {pton : Str → Option Bytes} (hg : GoodTable pton d) :
    GoodTable pton (unskipped skip d) ↔ ∀ src e s t, ReadConstraint pton .table (keySig vs) d.preamble (some (src, e, s, t)) →
      ∀ n, AboutKey n s → skip n = false := by
  obtain ⟨vs', r, g1, g2, g3⟩ := hg
  cases each_unique (R := KeyDecl) (fun _ _ _ => keyDecl_unique) g1 hv
  constructor
  · rintro ⟨vs2, r2, k1, k2, k3⟩ src e s t hr n hn
    cases each_unique (R := KeyDecl) (fun _ _ _ => keyDecl_unique) k1 (unskipped_keys hv)
    cases readConstraint_unique hr (readConstraint_extends unskipped_sig_extends (fun _ _ h => h) k3)
    cases k3 with
    | some _ _ _ _ k5 =>
      obtain ⟨u, hu⟩ := hasTy_about k5 hn
      rw [unskipped_sig] at hu
      cases hsk : skip n with
      | false => rfl
      | true => rw [hsk] at hu; cases hu
  · intro hm
    refine ⟨_, r, unskipped_keys hv, distinct_filter g2, ?_⟩
    cases g3 with
    | none h => exact .none h
    | some k1 k2 k3 k4 k5 => exact .some k1 k2 k3 k4 ((hasTy_unskipped (hm _ _ _ _ (.some k1 k2 k3 k4 k5))).1 k5)

end

end P4C
