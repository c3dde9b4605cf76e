import Verif.Spec.Independent
import Verif.Proofs.Obtain

/-
Lemmas for C96: entries can be put together from two.
-/

namespace P4C

open Spec

/-- The value only depends on what is mentioned. -/
theorem signedMeans_congr {Γ : Sig} {ρ ρ' : Env} {s : SExpr} {t : Ty} {v : Value} (h : SignedMeans Γ ρ s t v)
    (hk : ∀ n, AboutKey n s → ρ.key n = ρ'.key n) (hp : AboutPriority s → ρ.priority = ρ'.priority)
    (hparam : ∀ n, ρ.param n = ρ'.param n) : SignedMeans Γ ρ' s t v := by
  induction h with
  | bool b => exact .bool b
  | int z => exact .int z
  | key h1 h2 => exact .key h1 (hk _ rfl ▸ h2)
  | param h1 h2 => exact .param h1 (hparam _ ▸ h2)
  | priority h1 => exact .priority (hp trivial ▸ h1)
  | not _ ih => exact .not (ih hk hp)
  | neg _ ih => exact .neg (ih hk hp)
  | conn _ _ ih1 ih2 =>
    exact .conn (ih1 (fun n hn => hk n (.inl hn)) fun hn => hp (.inl hn)) (ih2 (fun n hn => hk n (.inr hn)) fun hn => hp (.inr hn))
  | cmp _ _ hj hc ih1 ih2 =>
    exact .cmp (ih1 (fun n hn => hk n (.inl hn)) fun hn => hp (.inl hn))
      (ih2 (fun n hn => hk n (.inr hn)) fun hn => hp (.inr hn)) hj hc
  | field _ hf hv ih => exact .field (ih hk hp) hf hv

open Classical in
/-- The entry put together from two. -/
noncomputable def mix (vs : List VarInfo) (s : SExpr) (a b : RtEntry) : RtEntry :=
  { b with
    matches_ := a.matches_.filter (fun m => decide (∃ ki ∈ vs, ki.id = m.fieldId ∧ AboutKey ki.name s)) ++
      b.matches_.filter (fun m => !decide (∃ ki ∈ vs, ki.id = m.fieldId ∧ AboutKey ki.name s))
    priority := if AboutPriority s then a.priority else b.priority }

section
variable {vs : List VarInfo} {skip : Str → Bool} (hd : Distinct vs) {s : SExpr} {a b : RtEntry}

theorem mem_mix {m : FieldMatch} : m ∈ (mix vs s a b).matches_ ↔
    (m ∈ a.matches_ ∧ ∃ ki ∈ vs, ki.id = m.fieldId ∧ AboutKey ki.name s) ∨
    (m ∈ b.matches_ ∧ ¬ ∃ ki ∈ vs, ki.id = m.fieldId ∧ AboutKey ki.name s) := by
  simp [mix]

include hd in
theorem selected {ki : VarInfo} (hki : ki ∈ vs) {m : FieldMatch} (hm : m.fieldId = ki.id) :
    (∃ kj ∈ vs, kj.id = m.fieldId ∧ AboutKey kj.name s) ↔ AboutKey ki.name s := by
  constructor
  · rintro ⟨kj, h1, h2, h3⟩
    cases inj_of_nodup_map hd.1 h1 hki (h2.trans hm)
    exact h3
  · exact fun h1 => ⟨ki, hki, hm.symm, h1⟩

include hd in
theorem mix_keyValue {ki : VarInfo} (hki : ki ∈ vs) (v : Value) :
    (AboutKey ki.name s → (KeyValue (mix vs s a b) ki v ↔ KeyValue a ki v)) ∧
    (¬ AboutKey ki.name s → (KeyValue (mix vs s a b) ki v ↔ KeyValue b ki v)) := by
  have key : ∀ c : RtEntry, (∀ m : FieldMatch, m.fieldId = ki.id → (m ∈ (mix vs s a b).matches_ ↔ m ∈ c.matches_)) →
      (KeyValue (mix vs s a b) ki v ↔ KeyValue c ki v) := by
    intro c hc
    unfold KeyValue
    refine or_congr ?_ (and_congr_left fun _ => ?_)
    · exact exists_congr fun m => ⟨fun ⟨h1, h2, h3⟩ => ⟨(hc m h2).1 h1, h2, h3⟩, fun ⟨h1, h2, h3⟩ => ⟨(hc m h2).2 h1, h2, h3⟩⟩
    · exact ⟨fun h m hm he => h m ((hc m he).2 hm) he, fun h m hm he => h m ((hc m he).1 hm) he⟩
  constructor
  · exact fun ha => key a fun m hm => by rw [mem_mix, selected hd hki hm]; simp [ha]
  · exact fun ha => key b fun m hm => by rw [mem_mix, selected hd hki hm]; simp [ha]

include hd in
theorem mix_canonical (ca : CanonicalOver vs skip a) (cb : CanonicalOver vs skip b) : CanonicalOver vs skip (mix vs s a b) := by
  refine ⟨?_, ?_, ?_, ?_⟩
  · intro m hm
    rcases mem_mix.1 hm with ⟨h1, _⟩ | ⟨h1, _⟩
    · exact ca.keys m h1
    · exact cb.keys m h1
  · simp only [mix, List.map_append]
    refine List.nodup_append.2 ⟨ca.once.sublist (List.filter_sublist.map _), cb.once.sublist (List.filter_sublist.map _), ?_⟩
    intro x hx y hy hxy
    obtain ⟨m, h1, rfl⟩ := List.mem_map.1 hx
    obtain ⟨m', h2, rfl⟩ := List.mem_map.1 hy
    simp only [List.mem_filter, decide_eq_true_eq, Bool.not_eq_true', decide_eq_false_iff_not] at h1 h2
    exact h2.2 (hxy ▸ h1.2)
  · intro ki hki w hw hsk
    by_cases hab : AboutKey ki.name s
    · obtain ⟨m, h1, h2⟩ := ca.exact ki hki w hw hsk
      exact ⟨m, mem_mix.2 (.inl ⟨h1, (selected hd hki h2).2 hab⟩), h2⟩
    · obtain ⟨m, h1, h2⟩ := cb.exact ki hki w hw hsk
      exact ⟨m, mem_mix.2 (.inr ⟨h1, fun hx => hab ((selected hd hki h2).1 hx)⟩), h2⟩
  · simp only [mix]
    split
    · exact ca.priority
    · exact cb.priority

end

section
variable {sys : Sys} {p : P4Info} {ci : ConstraintInfo} (h : p4ToConstraintInfo sys p = .ok ci) {d : TableDecl}
  (hd : d ∈ p.tables) {ti : TableInfo} (hti : lookup d.preamble.id ci.tables = some ti) {skip : Str → Bool}
  (hs : Solvable d skip)

include h hd hti hs in
/-- A solution of the texts and an entry of which the constraint holds can be put together. -/
theorem mixed_solution (hsup : AllSupported d skip) {text : Str} {se : SExpr} {texts : List Str}
    (hse : TextSays sys.inetPton6 d text se) (hf : Fresh sys.inetPton6 d texts se) {a b : RtEntry}
    (ha : CanonicalFor d skip a) (hta : SignedTrueOf d a se) (hb : SignedSolution sys.inetPton6 d skip texts b) :
    ∃ entry, SignedSolution sys.inetPton6 d skip (text :: texts) entry ∧ Mixed d se a b entry := by
  obtain ⟨vs, _, hk, hdis, _⟩ := (p4ToConstraintInfo_succeeds.1 ⟨ci, h⟩).2.2.1 d hd
  obtain ⟨ida, vs', hk', ca⟩ := ha
  cases keys_same hk hk'
  obtain ⟨idb, vs', hk', cb⟩ := hb.canonical
  cases keys_same hk hk'
  have cm := mix_canonical hdis (s := se) ca cb
  have hcm : CanonicalFor d skip (mix vs se a b) := ⟨idb, vs, hk, cm⟩
  obtain ⟨vs', ρ, hk', hmaps, hfm, henv⟩ := canonical_env h hd hti hs hsup hcm
  cases keys_same hk hk'
  have hm := (entryEnv_means hmaps).1 henv
  have val := fun {ki} hki v => mix_keyValue (s := se) (a := a) (b := b) hdis (ki := ki) hki v
  have mixed : Mixed d se a b (mix vs se a b) := by
    refine ⟨?_, ?_, fun hp => by simp [mix, hp], fun hp => by simp [mix, hp]⟩
    · intro vs' hk' ki hki hab v
      cases keys_same hk hk'
      exact (val hki v).1 hab
    · intro vs' hk' ki hki hab v
      cases keys_same hk hk'
      exact (val hki v).2 hab
  -- the constraint holds
  have h1 : SignedTrueOf d (mix vs se a b) se := by
    obtain ⟨vs', ρa, hk', _, hma, hh⟩ := hta
    cases keys_same hk hk'
    refine ⟨vs, ρ, hk, hfm, hm, signedMeans_congr hh ?_ ?_ fun n => (hma.param n).trans (hm.param n).symm⟩
    · intro n hn
      refine Option.ext fun v => ?_
      rw [hma.key, hm.key]
      refine exists_congr fun ki => and_congr_right fun hki => and_congr_right fun hname => ?_
      exact ((val hki v).1 (hname ▸ hn)).symm
    · intro hp
      rw [hma.priority, hm.priority, mixed.aboutPriority hp]
  -- so do those that are independent of it
  have h2 : ∀ u, Unrelated se u → SignedTrueOf d b u → SignedTrueOf d (mix vs se a b) u := by
    rintro u hu ⟨vs', ρb, hk', _, hmb, hh⟩
    cases keys_same hk hk'
    refine ⟨vs, ρ, hk, hfm, hm, signedMeans_congr hh ?_ ?_ fun n => (hmb.param n).trans (hm.param n).symm⟩
    · intro n hn
      refine Option.ext fun v => ?_
      rw [hmb.key, hm.key]
      refine exists_congr fun ki => and_congr_right fun hki => and_congr_right fun hname => ?_
      exact ((val hki v).2 fun hx => hu.key ki.name ⟨hx, hname ▸ hn⟩).symm
    · intro hp
      rw [hmb.priority, hm.priority, mixed.otherPriority fun hx => hu.priority ⟨hx, hp⟩]
  refine ⟨mix vs se a b, ⟨hcm, ?_, ?_⟩, mixed⟩
  · rcases hb.table with hb' | ⟨u, g1, g2⟩
    · exact .inl hb'
    · exact .inr ⟨u, g1, h2 u (hf.table u g1) g2⟩
  · intro t ht
    rcases List.mem_cons.1 ht with rfl | ht
    · exact ⟨se, hse, h1⟩
    · obtain ⟨u, g1, g2⟩ := hb.texts t ht
      exact ⟨u, g1, h2 u (hf.texts t ht u g1) g2⟩

end

end P4C
