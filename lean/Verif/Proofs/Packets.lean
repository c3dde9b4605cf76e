import Verif.Proofs.Accept
import Verif.Proofs.Locality
import Verif.Proofs.Match
import Verif.Proofs.Shuffle
import Verif.Spec.Packets

namespace P4C

open Spec

theorem ofWidth_unique {W W' : Nat} {t : Ty} (h : OfWidth W t) (h' : OfWidth W' t) : W = W' := by
  cases h <;> cases h' <;> rfl

theorem wellFormed_matches {W : Nat} {t : Ty} {v : Value} (ht : OfWidth W t) (hv : WellFormed W t v) :
    ∃ x < 2 ^ W, Spec.Matched W t v x := by
  have h2 := two_pow_cast W
  cases ht <;> cases v <;> simp only [WellFormed] at hv
  · obtain ⟨h0, h1⟩ := hv
    exact ⟨Int.toNat _, by omega, Int.toNat_of_nonneg h0⟩
  · obtain ⟨h0, h1⟩ := hv
    exact ⟨Int.toNat _, by omega, Int.toNat_of_nonneg h0⟩
  · rename_i v m
    obtain ⟨h0, h1, h3, h4⟩ := hv
    refine ⟨v.toNat, ?_, rfl⟩
    have := Nat.and_le_right (n := v.toNat) (m := m.toNat)
    omega
  · rename_i v m
    exact ⟨v.toNat, by omega, rfl⟩
  · rename_i v m
    exact ⟨v.toNat, by omega, rfl⟩
  · rename_i l h
    exact ⟨l.toNat, by omega, by simp only [Spec.Matched]; omega⟩

theorem keyValue_once {entry : RtEntry} {ki : VarInfo} {v w : Value}
    (hn : (entry.matches_.map FieldMatch.fieldId).Nodup) (h : KeyValue entry ki v) (h' : KeyValue entry ki w) : v = w := by
  rcases h with ⟨m, h1, h2, h3⟩ | ⟨h1, h2⟩
  · rcases h' with ⟨m', h1', h2', h3'⟩ | ⟨h1', _⟩
    · cases inj_of_nodup_map hn h1 h1' (h2.trans h2'.symm)
      exact matchDenotes_unique h3 h3'
    · exact (h1' m h1 h2).elim
  · rcases h' with ⟨m', h1', h2', _⟩ | ⟨_, h2'⟩
    · exact (h1 m' h1' h2').elim
    · generalize ki.ty = t at h2 h2'
      cases h2 <;> cases h2' <;> rfl

/-- What the entries say of a key is determined by the packets they match. -/
theorem hits_values {vs : List VarInfo} (hd : (vs.map VarInfo.id).Nodup) {a b : RtEntry} (ha : Proper vs a) (hb : Proper vs b)
    (h : ∀ x, Hits vs a x → Hits vs b x) (h' : ∀ x, Hits vs b x → Hits vs a x) {ki : VarInfo} (hk : ki ∈ vs) {v : Value}
    (hv : KeyValue a ki v) : KeyValue b ki v := by
  have value : ∀ {c : RtEntry}, EntryFits vs c → ∀ kj ∈ vs, ∃ w, KeyValue c kj w := by
    intro c hc kj hj
    by_cases hm : ∃ m ∈ c.matches_, m.fieldId = kj.id
    · obtain ⟨m, h1, h2⟩ := hm
      obtain ⟨kl, h3, h4, w, h5⟩ := hc.known m h1
      cases inj_of_nodup_map hd h3 hj (h4.trans h2)
      exact ⟨w, .inl ⟨m, h1, h2, h5⟩⟩
    · rcases hc.complete kj hj with h1 | ⟨w, h1⟩
      · exact (hm h1).elim
      · exact ⟨w, .inr ⟨fun m h2 h3 => hm ⟨m, h2, h3⟩, h1⟩⟩
  have packet : ∀ {c : RtEntry}, Proper vs c → ∃ x, Hits vs c x := by
    intro c hc
    have : ∀ kj, ∃ n, kj ∈ vs → ∃ W w, OfWidth W kj.ty ∧ KeyValue c kj w ∧ n < 2 ^ W ∧ Spec.Matched W kj.ty w n := by
      intro kj
      by_cases hj : kj ∈ vs
      · obtain ⟨w, h1⟩ := value hc.fits kj hj
        obtain ⟨W, h2, h3⟩ := hc.values kj hj w h1
        obtain ⟨n, h4, h5⟩ := wellFormed_matches h2 h3
        exact ⟨n, fun _ => ⟨W, w, h2, h1, h4, h5⟩⟩
      · exact ⟨0, fun h => (hj h).elim⟩
    refine ⟨fun id => match vs.find? fun kj => kj.id = id with | some kj => (this kj).choose | none => 0, fun kj hj => ?_⟩
    have hf : vs.find? (fun kl => kl.id = kj.id) = some kj := by
      cases hx : vs.find? (fun kl => decide (kl.id = kj.id)) with
      | none => exact absurd (List.find?_eq_none.1 hx kj hj) (by simp)
      | some kl =>
        have h1 := List.find?_some hx
        have h2 := List.mem_of_find?_eq_some hx
        rw [inj_of_nodup_map hd h2 hj (by simpa using h1)]
    dsimp only
    rw [hf]
    exact (this kj).choose_spec hj
  have change : ∀ {c d : RtEntry}, Proper vs c → Proper vs d → (∀ x, Hits vs c x → Hits vs d x) → ∀ {w u : Value} {W : Nat},
      OfWidth W ki.ty → KeyValue c ki w → KeyValue d ki u → ∀ n < 2 ^ W, Spec.Matched W ki.ty w n → Spec.Matched W ki.ty u n := by
    intro c d hc hd' hcd w u W hW hw hu n hn hm
    obtain ⟨x, hx⟩ := packet hc
    have := hcd (fun id => if id = ki.id then n else x id) (by
      intro kj hj
      by_cases he : kj.id = ki.id
      · cases inj_of_nodup_map hd hj hk he
        exact ⟨W, w, hW, hw, by simpa using hn, by simpa using hm⟩
      · simpa [he] using hx kj hj)
    obtain ⟨W', u', h1, h2, _, h4⟩ := this ki hk
    cases ofWidth_unique hW h1
    cases keyValue_once hd'.fits.once hu h2
    simpa using h4
  obtain ⟨w, hw⟩ := value hb.fits ki hk
  obtain ⟨W, h1, h2⟩ := ha.values ki hk v hv
  obtain ⟨W', h3, h4⟩ := hb.values ki hk w hw
  cases ofWidth_unique h1 h3
  have : v = w := (same_values h1 h2 h4).2 fun n hn => ⟨change ha hb h h1 hv hw n hn, change hb ha h' h1 hw hv n hn⟩
  exact this ▸ hw

theorem parseTableEntry_said {ti : TableInfo} {a b : RtEntry} (hwf : TableWF ti) (ha : EntryOk ti a) (hb : EntryOk ti b)
    (hp : a.priority = b.priority) (hk : ∀ n ki, (n, ki) ∈ ti.keysByName → ∀ v, KeyValue a ki v ↔ KeyValue b ki v) :
    ∃ ctx ctx', parseTableEntry a ti = .ok ctx ∧ parseTableEntry b ti = .ok ctx' ∧ SameCtx ctx ctx' := by
  obtain ⟨ctx, hc⟩ := (parseTableEntry_iff hwf a).2 ha
  obtain ⟨ctx', hc'⟩ := (parseTableEntry_iff hwf b).2 hb
  obtain ⟨he1, hs1, k1, hv1, hn1⟩ := parseTableEntry_env hwf hc
  obtain ⟨he2, hs2, k2, hv2, hn2⟩ := parseTableEntry_env hwf hc'
  have he : EntryEnv ti b (envOf ctx) :=
    ⟨fun n v => by
      rw [he1.key]
      exact exists_congr fun ki => and_congr_right fun h => hk n ki h v, he1.param, by rw [he1.priority, hp]⟩
  have he := entryEnv_unique he he2
  refine ⟨ctx, ctx', hc, hc', hs1.trans hs2.symm, .inl ⟨_, _, k1, k2, hv1, by rw [hv2, hp], hn1, hn2, fun n => ?_⟩⟩
  have h1 := congrFun (congrArg Env.key he) n
  simpa [envOf, hv1, hv2] using h1

theorem tableReason_packets {sys : Sys} {d : TableDecl} {ti : TableInfo} (h : parseTableInfo sys d = .ok ti) {a b : RtEntry}
    (hs : SamePackets d a b) : tableReason a ti = tableReason b ti := by
  obtain ⟨vs, h1, h2, h3, h4⟩ := hs.packets
  obtain ⟨vs', g1, g2, g3, g4⟩ := parseTableInfo_parts h
  cases each_unique (fun f v v' (h : KeyDecl f v) h' => keyDecl_unique h h') h1 g1
  have hwf := parseTableInfo_wf h
  obtain ⟨ctx, ctx', hc, hc', hsame⟩ := parseTableEntry_said hwf ((entryOk_fits g3).2 h2.fits) ((entryOk_fits g3).2 h3.fits)
    hs.priority (fun n ki hk v => by
      have hk := ((g3.byName n ki).1 hk).1
      exact ⟨hits_values g2.1 h2 h3 (fun x => (h4 x).1) (fun x => (h4 x).2) hk,
        hits_values g2.1 h3 h2 (fun x => (h4 x).2) (fun x => (h4 x).1) hk⟩)
  unfold tableReason
  cases ti.constraint with
  | none => rfl
  | some c =>
    dsimp only
    rw [hc, hc']
    exact checkConstraint_same hsame

theorem actionOk_call {ai : ActionInfo} {a b : RtAction} (h : SameCall a b) (ha : ActionOk ai a) : ActionOk ai b :=
  ⟨fun p hp => by
    obtain ⟨v, hv, _⟩ := (h.args p.1 (bytesNat p.2)).2 ⟨p.2, hp, rfl⟩
    obtain ⟨pi, hpi⟩ := ha.known _ hv
    exact ⟨pi, hpi⟩, h.once.2⟩

theorem SameCall.symm {a b : RtAction} (h : SameCall a b) : SameCall b a :=
  ⟨h.id.symm, h.once.symm, fun id n => (h.args id n).symm⟩

theorem actionEnv_call {ai : ActionInfo} {a b : RtAction} {ρ : Env} (h : SameCall a b) (ha : ActionEnv ai a ρ) :
    ActionEnv ai b ρ :=
  ⟨ha.key, fun n z => by
    rw [ha.param]
    constructor
    · rintro ⟨pi, v, h1, h2, h3⟩
      obtain ⟨v', h4, h5⟩ := (h.args pi.id (bytesNat v)).1 ⟨v, h2, rfl⟩
      exact ⟨pi, v', h1, h4, by rw [h3, h5]⟩
    · rintro ⟨pi, v, h1, h2, h3⟩
      obtain ⟨v', h4, h5⟩ := (h.args pi.id (bytesNat v)).2 ⟨v, h2, rfl⟩
      exact ⟨pi, v', h1, h4, by rw [h3, h5]⟩, ha.priority⟩

theorem reasonAction_call {ci : ConstraintInfo} (hwf : InfoWF ci) {a b : RtAction} (h : SameCall a b) :
    reasonAction a ci = reasonAction b ci := by
  have key : ∀ {a b : RtAction} {ai : ActionInfo}, ActionWF ai → SameCall a b → ∀ {ctx}, parseAction a ai = .ok ctx →
      ∃ ctx', parseAction b ai = .ok ctx' ∧ SameCtx ctx ctx' := by
    intro a b ai hwf h ctx hc
    obtain ⟨ctx', hc'⟩ := (parseAction_iff hwf b).2 (actionOk_call h ((parseAction_iff hwf a).1 ⟨_, hc⟩))
    obtain ⟨he1, hs1, k1, hv1, hn1⟩ := parseAction_env hwf hc
    obtain ⟨he2, hs2, k2, hv2, hn2⟩ := parseAction_env hwf hc'
    have he := actionEnv_unique (actionEnv_call h he1) he2
    refine ⟨ctx', hc', hs1.trans hs2.symm, .inr ⟨_, _, k1, k2, hv1, by rw [hv2, h.id], hn1, hn2, fun n => ?_⟩⟩
    have h1 := congrFun (congrArg Env.param he) n
    simpa [envOf, hv1, hv2] using h1
  cases hl : lookup b.actionId ci.actions with
  | none =>
    unfold reasonAction getActionInfo
    rw [h.id, hl]
  | some ai =>
    have hw := hwf.actions _ ai (lookup_some_mem hl)
    rw [reasonAction_info hl, reasonAction_info (h.id ▸ hl)]
    unfold actionReason
    cases ai.constraint with
    | none => rfl
    | some c =>
      dsimp only
      rcases parseAction_err a ai with ⟨ctx, hc⟩ | hc
      · obtain ⟨ctx', hc', hs⟩ := key hw h hc
        rw [hc, hc']
        exact checkConstraint_same hs
      · rcases parseAction_err b ai with ⟨ctx, hc'⟩ | hc'
        · obtain ⟨ctx', hc'', _⟩ := key hw (SameCall.symm h) hc'
          rw [hc] at hc''
          cases hc''
        · rw [hc, hc']

theorem reasonTableAction_calls {ci : ConstraintInfo} (hwf : InfoWF ci) {a b : Option TableAction} (h : SameCalls a b) :
    reasonTableAction ci a = reasonTableAction ci b := by
  cases h with
  | same => rfl
  | action h => exact reasonAction_call hwf h
  | set h =>
    show reasonActionSet ci _ = reasonActionSet ci _
    induction h with
    | nil => rfl
    | cons h _ ih =>
      unfold reasonActionSet
      rw [reasonAction_call hwf h, ih]

theorem reason_packets {sys : Sys} {p : P4Info} {ci : ConstraintInfo} (h : p4ToConstraintInfo sys p = .ok ci)
    {d : TableDecl} (hd : d ∈ p.tables) {a b : RtEntry} (hs : SamePackets d a b) (hc : SameCalls a.action b.action) :
    reasonEntryViolatesConstraint a ci = reasonEntryViolatesConstraint b ci := by
  cases hl : lookup b.tableId ci.tables with
  | none =>
    unfold reasonEntryViolatesConstraint getTableInfo
    rw [hs.table.1, ← hs.table.2, hl]
  | some ti =>
    obtain ⟨d', h1, h2, h3⟩ := (table_of_info h).1 hl
    have : d' = d := by
      obtain ⟨ts, as, _, _, hn, _⟩ := p4ToConstraintInfo_ok.1 h
      exact inj_of_nodup_map hn h1 hd (h2.trans hs.table.2)
    subst this
    rw [reason_found hl, reason_found (by rw [hs.table.1, ← hs.table.2]; exact hl), tableReason_packets h3 hs,
      reasonTableAction_calls (infoWF_of h) hc]

theorem proper_of {vs : List VarInfo} {entry : RtEntry} (hf : EntryFits vs entry)
    (h : ∀ ki ∈ vs, ∃ v W, KeyValue entry ki v ∧ OfWidth W ki.ty ∧ WellFormed W ki.ty v) : Proper vs entry :=
  ⟨hf, fun ki hk v hv => by
    obtain ⟨w, W, h1, h2, h3⟩ := h ki hk
    cases keyValue_once hf.once hv h1
    exact ⟨W, h2, h3⟩⟩

theorem hits_of {vs : List VarInfo} {a b : RtEntry} (ha : (a.matches_.map FieldMatch.fieldId).Nodup)
    (hb : (b.matches_.map FieldMatch.fieldId).Nodup) (h : ∀ ki ∈ vs, ∃ v, KeyValue a ki v ∧ KeyValue b ki v) (x : Nat → Nat) :
    Hits vs a x ↔ Hits vs b x :=
  forall_congr' fun ki => forall_congr' fun hk => exists_congr fun W => exists_congr fun v => by
    obtain ⟨w, h1, h2⟩ := h ki hk
    have : KeyValue a ki v ↔ KeyValue b ki v :=
      ⟨fun h3 => by cases keyValue_once ha h1 h3; exact h2, fun h3 => by cases keyValue_once hb h2 h3; exact h1⟩
    rw [this]

end P4C
