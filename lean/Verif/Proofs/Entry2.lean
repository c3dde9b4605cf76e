import Verif.Proofs.Entry
import Verif.Proofs.Eval

/-
Consistent entries provide values for all keys; action invocations.
-/

namespace P4C

open Spec

theorem matchDenotes_shape {t : Ty} {m : MatchVal} {v : Value} (h : MatchDenotes t m v) : HasShape t v := by
  cases h <;> constructor

theorem wildcardOf_shape {t : Ty} {v : Value} (h : WildcardOf t v) : HasShape t v := by
  cases h <;> constructor

theorem keyValue_shape {entry : RtEntry} {ki : VarInfo} {v : Value} (h : KeyValue entry ki v) :
    HasShape ki.ty v := by
  rcases h with ⟨_, _, _, h⟩ | ⟨_, h⟩
  · exact matchDenotes_shape h
  · exact wildcardOf_shape h

theorem keyValue_exists {ti : TableInfo} {entry : RtEntry} (hwf : TableWF ti) (h : EntryOk ti entry)
    {id : Nat} {ki : VarInfo} (hki : (id, ki) ∈ ti.keysById) : ∃ v, KeyValue entry ki v := by
  obtain ⟨rfl, _⟩ := hwf.byId _ _ hki
  by_cases hm : ∃ m ∈ entry.matches_, m.fieldId = ki.id
  · obtain ⟨m, hm, hid⟩ := hm
    obtain ⟨ki', hki', v, hv⟩ := h.known m hm
    rw [hid] at hki'
    cases nodup_keys_unique hwf.nodupId hki hki'
    exact ⟨v, .inl ⟨m, hm, hid, hv⟩⟩
  · rcases h.complete _ _ hki with h' | ⟨v, hv⟩
    · exact absurd h' hm
    · exact ⟨v, .inr ⟨fun m h1 h2 => hm ⟨m, h1, h2⟩, hv⟩⟩

theorem entry_consistent {ti : TableInfo} {entry : RtEntry} {ρ : Env} (hwf : TableWF ti)
    (hok : EntryOk ti entry) (hρ : EntryEnv ti entry ρ) :
    Consistent (sigOf (.table ti.keysByName)) ρ := by
  constructor
  · intro n t hn _
    simp only [sigOf, Option.map_eq_some_iff] at hn
    obtain ⟨ki, hki, rfl⟩ := hn
    have hk := hwf.lookup_name.1 hki
    obtain ⟨rfl, hki'⟩ := hwf.byName _ _ hk
    obtain ⟨v, hv⟩ := keyValue_exists hwf hok hki'
    exact ⟨v, (hρ.key _ _).2 ⟨ki, hk, hv⟩, keyValue_shape hv⟩
  · intro n t hn
    simp [sigOf] at hn

theorem entryEnv_unique {ti : TableInfo} {entry : RtEntry} {ρ ρ' : Env} (h : EntryEnv ti entry ρ)
    (h' : EntryEnv ti entry ρ') : ρ = ρ' := by
  cases ρ; cases ρ'
  congr
  · funext n
    apply Option.ext
    intro v
    have h1 := h.key n v
    have h2 := h'.key n v
    dsimp only at h1 h2
    rw [h1, h2]
  · funext n
    have h1 := h.param n
    have h2 := h'.param n
    dsimp only at h1 h2
    rw [h1, h2]
  · have h1 := h.priority
    have h2 := h'.priority
    dsimp only at h1 h2
    rw [h1, h2]

theorem Spec.ActionWF.lookup_id {ai : ActionInfo} (h : ActionWF ai) {id : Nat} {pi : VarInfo} :
    lookup id ai.paramsById = some pi ↔ (id, pi) ∈ ai.paramsById := lookup_iff_mem h.nodupId

theorem Spec.ActionWF.lookup_name {ai : ActionInfo} (h : ActionWF ai) {n : Str} {pi : VarInfo} :
    lookup n ai.paramsByName = some pi ↔ (n, pi) ∈ ai.paramsByName := lookup_iff_mem h.nodupName

theorem Spec.ActionWF.name_inj {ai : ActionInfo} (h : ActionWF ai) {a b : Nat} {k k' : VarInfo}
    (h1 : (a, k) ∈ ai.paramsById) (h2 : (b, k') ∈ ai.paramsById) (hn : k.name = k'.name) :
    k = k' ∧ a = b := by
  have e1 := (h.byId _ _ h1).2
  have e2 := (h.byId _ _ h2).2
  rw [hn] at e1
  have := nodup_keys_unique h.nodupName e1 e2
  subst this
  exact ⟨rfl, by rw [← (h.byId _ _ h1).1, ← (h.byId _ _ h2).1]⟩

/-- Parsing of one argument. -/
def parseParam (ai : ActionInfo) (p : Nat × Bytes) : Res (Str × Int) :=
  match lookup p.1 ai.paramsById with
  | none => .err .invalidArgument
  | some pi => .ok (pi.name, parseP4RTInteger p.2)

theorem parseParams_ok {ai : ActionInfo} {as : List (Nat × Bytes)} {acc ps : List (Str × Int)} :
    parseParams ai acc as = .ok ps ↔
    ∃ qs : List (Str × Int), as.map (parseParam ai) = qs.map Res.ok ∧
      (qs.map Prod.fst).Nodup ∧ (∀ p ∈ qs, hasKey p.1 acc = false) ∧ ps = qs.reverse ++ acc := by
  induction as generalizing acc with
  | nil =>
    simp only [parseParams, List.map_nil]
    constructor
    · intro h; cases h; exact ⟨[], by simp⟩
    · rintro ⟨ps, h1, _, _, h4⟩
      have : ps = [] := by cases ps <;> simp at h1 ⊢
      subst this
      simp [h4]
  | cons m ms ih =>
    obtain ⟨id, b⟩ := m
    simp only [parseParams, List.map_cons]
    constructor
    · intro h
      split at h
      · cases h
      · rename_i pi hl
        split at h
        · cases h
        · rename_i hk
          simp only [Bool.not_eq_true] at hk
          obtain ⟨ps, h1, h2, h3, rfl⟩ := ih.1 h
          refine ⟨(pi.name, parseP4RTInteger b) :: ps, by simp [parseParam, hl, h1], ?_, ?_, by simp⟩
          · simp only [List.map_cons, List.nodup_cons]
            refine ⟨?_, h2⟩
            intro hmem
            obtain ⟨p, hp, hpn⟩ := List.mem_map.1 hmem
            have := h3 p hp
            rw [hasKey_false] at this
            exact this (parseP4RTInteger b) (by rw [hpn]; simp)
          · intro p hp
            rcases List.mem_cons.1 hp with rfl | hp
            · exact hk
            · have := h3 p hp
              rw [hasKey_false] at this ⊢
              intro a ha
              exact this a (List.mem_cons_of_mem _ ha)
    · rintro ⟨ps, h1, h2, h3, rfl⟩
      cases ps with
      | nil => simp at h1
      | cons p ps =>
        simp only [List.map_cons, List.cons.injEq] at h1
        obtain ⟨h0, h1⟩ := h1
        unfold parseParam at h0
        dsimp only at h0
        cases hl : lookup id ai.paramsById with
        | none => rw [hl] at h0; cases h0
        | some pi =>
          rw [hl] at h0
          cases h0
          dsimp only
          have hk := h3 _ (List.mem_cons_self ..)
          dsimp only at hk
          rw [hk]
          simp only [List.map_cons, List.nodup_cons] at h2
          simp only [Bool.false_eq_true, if_false]
          refine ih.2 ⟨ps, h1, h2.2, ?_, by simp⟩
          intro p hp
          rw [hasKey_false]
          intro a ha
          rcases List.mem_cons.1 ha with he | ha
          · exact h2.1 (List.mem_map.2 ⟨p, hp, (Prod.mk.inj he).1⟩)
          · exact hasKey_false.1 (h3 p (List.mem_cons_of_mem _ hp)) a ha

theorem parseParam_ok {ai : ActionInfo} {p : Nat × Bytes} {n : Str} {z : Int} :
    parseParam ai p = .ok (n, z) ↔
    ∃ pi, lookup p.1 ai.paramsById = some pi ∧ n = pi.name ∧ z = bytesNat p.2 := by
  unfold parseParam
  cases lookup p.1 ai.paramsById with
  | none => simp
  | some pi => simp [parseP4RTInteger_eq, eq_comm]

theorem parsedParams_nodup {ai : ActionInfo} (h : ActionWF ai) {as : List (Nat × Bytes)}
    {qs : List (Str × Int)} (hp : as.map (parseParam ai) = qs.map Res.ok) :
    (qs.map Prod.fst).Nodup ↔ (as.map Prod.fst).Nodup := by
  induction as generalizing qs with
  | nil => cases qs <;> simp at hp ⊢
  | cons m ms ih =>
    cases qs with
    | nil => simp at hp
    | cons p ps =>
      simp only [List.map_cons, List.cons.injEq] at hp
      obtain ⟨hm, hp⟩ := hp
      simp only [List.map_cons, List.nodup_cons, ih hp]
      obtain ⟨i1, i2⟩ := map_ok_mem hp
      obtain ⟨n, v⟩ := p
      obtain ⟨ki, hl, rfl, _⟩ := parseParam_ok.1 hm
      have hkm := h.lookup_id.1 hl
      have : (ki.name ∈ ps.map Prod.fst) ↔ (m.1 ∈ ms.map Prod.fst) := by
        constructor
        · intro hmem
          obtain ⟨⟨n', v'⟩, hq, rfl⟩ := List.mem_map.1 hmem
          obtain ⟨m', hm', he⟩ := i2 _ hq
          obtain ⟨ki', hl', hn, _⟩ := parseParam_ok.1 he
          obtain ⟨_, hid⟩ := h.name_inj hkm (h.lookup_id.1 hl') hn
          exact List.mem_map.2 ⟨m', hm', hid.symm⟩
        · intro hmem
          obtain ⟨m', hm', hid⟩ := List.mem_map.1 hmem
          obtain ⟨⟨n', v'⟩, hq, he⟩ := i1 _ hm'
          obtain ⟨ki', hl', hn, _⟩ := parseParam_ok.1 he
          rw [hid, hl] at hl'
          cases hl'
          exact List.mem_map.2 ⟨_, hq, hn⟩
      simp only [this]

theorem parseAction_iff {ai : ActionInfo} (h : ActionWF ai) (a : RtAction) :
    (∃ ctx, parseAction a ai = .ok ctx) ↔ ActionOk ai a := by
  unfold parseAction
  constructor
  · rintro ⟨ctx, hc⟩
    rw [Res.bind_eq_ok] at hc
    obtain ⟨ps, hps, _⟩ := hc
    obtain ⟨qs, h1, h2, _, _⟩ := parseParams_ok.1 hps
    refine ⟨?_, (parsedParams_nodup h h1).1 h2⟩
    intro p hp
    obtain ⟨⟨n, z⟩, _, he⟩ := (map_ok_mem h1).1 p hp
    obtain ⟨pi, hl, _⟩ := parseParam_ok.1 he
    exact ⟨pi, h.lookup_id.1 hl⟩
  · intro hok
    obtain ⟨qs, h1⟩ := map_ok_exists (f := parseParam ai) (l := a.params) (by
      intro p hp
      obtain ⟨pi, hpi⟩ := hok.known p hp
      exact ⟨(pi.name, bytesNat p.2), parseParam_ok.2 ⟨pi, h.lookup_id.2 hpi, rfl, rfl⟩⟩)
    have := parseParams_ok (ai := ai) (acc := []) (as := a.params) (ps := qs.reverse) |>.2
      ⟨qs, h1, (parsedParams_nodup h h1).2 hok.once, by simp [hasKey, lookup], by simp⟩
    exact ⟨_, by rw [this, Res.ok_bind]⟩

theorem parseAction_env {ai : ActionInfo} (h : ActionWF ai) {a : RtAction} {ctx : EvalCtx}
    (hc : parseAction a ai = .ok ctx) : ActionEnv ai a (envOf ctx) ∧ ctx.src = ai.source ∧
      ∃ ps, ctx.vals = .action ⟨a.actionId, ai.name, ps⟩ ∧ (ps.map Prod.fst).Nodup := by
  unfold parseAction at hc
  rw [Res.bind_eq_ok] at hc
  obtain ⟨ps, hps, hc⟩ := hc
  cases hc
  obtain ⟨qs, h1, h2, _, rfl⟩ := parseParams_ok.1 hps
  obtain ⟨i1, i2⟩ := map_ok_mem h1
  have hnd : ((qs.reverse ++ []).map Prod.fst).Nodup := by
    simpa using (List.reverse_perm _).nodup_iff.2 h2
  refine ⟨⟨fun _ => rfl, ?_, rfl⟩, rfl, _, rfl, hnd⟩
  intro n z
  show lookup n (qs.reverse ++ []) = some z ↔ _
  rw [lookup_iff_mem hnd, List.append_nil, List.mem_reverse]
  constructor
  · intro hq
    obtain ⟨⟨id, b⟩, hm, he⟩ := i2 _ hq
    obtain ⟨pi, hl, rfl, rfl⟩ := parseParam_ok.1 he
    obtain ⟨rfl, hn⟩ := h.byId _ _ (h.lookup_id.1 hl)
    exact ⟨pi, b, hn, hm, rfl⟩
  · rintro ⟨pi, b, hn, hm, rfl⟩
    obtain ⟨rfl, hid⟩ := h.byName _ _ hn
    obtain ⟨⟨n', z'⟩, hq, he⟩ := i1 _ hm
    obtain ⟨pi', hl, rfl, rfl⟩ := parseParam_ok.1 he
    rw [h.lookup_id.2 hid] at hl
    cases hl
    exact hq

theorem actionEnv_unique {ai : ActionInfo} {a : RtAction} {ρ ρ' : Env} (h : ActionEnv ai a ρ)
    (h' : ActionEnv ai a ρ') : ρ = ρ' := by
  cases ρ; cases ρ'
  congr
  · funext n
    have h1 := h.key n
    have h2 := h'.key n
    dsimp only at h1 h2
    rw [h1, h2]
  · funext n
    apply Option.ext
    intro v
    have h1 := h.param n v
    have h2 := h'.param n v
    dsimp only at h1 h2
    rw [h1, h2]
  · have h1 := h.priority
    have h2 := h'.priority
    dsimp only at h1 h2
    rw [h1, h2]

/-- Parameters have integer values: types for which evaluation accepts an integer. -/
theorem action_consistent {ai : ActionInfo} {a : RtAction} {ρ : Env} (hwf : ActionWF ai)
    (hcomp : ActionComplete ai a) (hρ : ActionEnv ai a ρ)
    (hbit : ∀ n pi, (n, pi) ∈ ai.paramsByName → Supported pi.ty → ∃ w, pi.ty = .fixedUnsigned w) :
    Consistent (sigOf (.action ai.paramsByName)) ρ := by
  constructor
  · intro n t hn
    simp [sigOf] at hn
  · intro n t hn hs
    simp only [sigOf, Option.map_eq_some_iff] at hn
    obtain ⟨pi, hpi, rfl⟩ := hn
    have hk := hwf.lookup_name.1 hpi
    obtain ⟨rfl, hid⟩ := hwf.byName _ _ hk
    obtain ⟨b, hb⟩ := hcomp _ _ hid
    obtain ⟨w, hw⟩ := hbit _ _ hk hs
    refine ⟨bytesNat b, (hρ.param _ _).2 ⟨pi, b, hk, hb, rfl⟩, ?_⟩
    rw [hw]
    exact .bit _ _

end P4C
