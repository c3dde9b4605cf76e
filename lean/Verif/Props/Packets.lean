import Verif.Proofs.Packets
import Verif.Props.Accept
import Verif.Props.Matching

/-!
# C67: the verdict depends only on the packets that an entry matches
-/

namespace P4C

open Spec

section
variable {sys : Sys} {p : P4Info} {ci : ConstraintInfo} (h : p4ToConstraintInfo sys p = .ok ci)

include h

/-- C67: two entries of a table that match the same packets, have the same priority and invoke the same actions get the same
result, however they are written: the same verdict, the same explanation, the same error. -/
theorem C67_same {d : TableDecl} (hd : d ∈ p.tables) {a b : RtEntry} (hs : SamePackets d a b)
    (hc : SameCalls a.action b.action) : reasonEntryViolatesConstraint a ci = reasonEntryViolatesConstraint b ci :=
  reason_packets h hd hs hc

/-- C67: so do two invocations of an action with the same arguments. -/
theorem C67_action {a b : RtAction} (hs : SameCall a b) : reasonAction a ci = reasonAction b ci :=
  reasonAction_call (infoWF_of h) hs

end

/-- The keys of the table of the examples. -/
def Ex.keyInfos : List VarInfo := [⟨1, c!"ex", .exact 32⟩, ⟨2, c!"tern", .ternary 8⟩, ⟨3, c!"pre", .lpm 16⟩,
  ⟨4, c!"ran", .range 8⟩, ⟨5, c!"opt", .optionalMatch 4⟩]

theorem Ex.keyInfos_declared (tc : Str) : Each KeyDecl (Ex.tableDecl tc).matchFields Ex.keyInfos :=
  .cons (.exact ..) (.cons (.ternary ..) (.cons (.lpm ..) (.cons (.range ..) (.cons (.optional ..) .nil))))

theorem Ex.fits {entry : RtEntry} (h1 : (entry.matches_.map FieldMatch.fieldId).Nodup)
    (h2 : ∀ m ∈ entry.matches_, ∃ ki ∈ Ex.keyInfos, ki.id = m.fieldId ∧ ∃ v, MatchDenotes ki.ty m.val v)
    (h3 : ∃ m ∈ entry.matches_, m.fieldId = 1) : EntryFits Ex.keyInfos entry :=
  ⟨h2, h1, by
    simp only [Ex.keyInfos, List.mem_cons, List.not_mem_nil, or_false]
    rintro _ (rfl | rfl | rfl | rfl | rfl)
    · exact .inl h3
    · exact .inr ⟨_, .ternary _⟩
    · exact .inr ⟨_, .lpm _⟩
    · exact .inr ⟨_, .range 8⟩
    · exact .inr ⟨_, .optional _⟩⟩

/-- An entry that matches packets with 5 where the key `ex` is. -/
def Ex.brief : RtEntry := { tableId := 1, matches_ := [⟨1, .exact [5]⟩], priority := 10, action := some (.action (Ex.action 1 2)) }

/-- The same with a leading zero, with wildcards that match everything in place of omitted keys, in another order, and with
the arguments in another order. -/
def Ex.lengthy : RtEntry :=
  { tableId := 1, matches_ := [⟨4, .range [0] [255]⟩, ⟨2, .ternary [] [0]⟩, ⟨3, .lpm [0, 0] 0⟩, ⟨1, .exact [0, 5]⟩],
    priority := 10, action := some (.action ⟨7, [(2, [0, 2]), (1, [1])]⟩) }

theorem Ex.brief_fits : EntryFits Ex.keyInfos Ex.brief :=
  Ex.fits (by decide) (by
    simp only [Ex.brief, List.mem_cons, List.not_mem_nil, or_false]
    rintro _ rfl
    exact ⟨_, List.mem_cons_self, rfl, _, .exact ..⟩) ⟨_, List.mem_cons_self, rfl⟩

theorem Ex.lengthy_fits : EntryFits Ex.keyInfos Ex.lengthy :=
  Ex.fits (by decide) (by
    simp only [Ex.lengthy, List.mem_cons, List.not_mem_nil, or_false]
    rintro _ (rfl | rfl | rfl | rfl)
    · exact ⟨⟨4, c!"ran", .range 8⟩, by simp [Ex.keyInfos], rfl, _, .range ..⟩
    · exact ⟨⟨2, c!"tern", .ternary 8⟩, by simp [Ex.keyInfos], rfl, _, .ternary ..⟩
    · exact ⟨⟨3, c!"pre", .lpm 16⟩, by simp [Ex.keyInfos], rfl, _, .lpm ..⟩
    · exact ⟨⟨1, c!"ex", .exact 32⟩, by simp [Ex.keyInfos], rfl, _, .exact ..⟩) ⟨⟨1, .exact [0, 5]⟩, by simp [Ex.lengthy], rfl⟩

theorem Ex.same_values : ∀ ki ∈ Ex.keyInfos, ∃ v W, KeyValue Ex.brief ki v ∧ KeyValue Ex.lengthy ki v ∧ OfWidth W ki.ty ∧
    WellFormed W ki.ty v := by
  simp only [Ex.keyInfos, List.mem_cons, List.not_mem_nil, or_false]
  rintro _ (rfl | rfl | rfl | rfl | rfl)
  · exact ⟨.exact 5, 32, .inl ⟨_, List.mem_cons_self, rfl, .exact 32 [5]⟩,
      .inl ⟨⟨1, .exact [0, 5]⟩, by simp [Ex.lengthy], rfl, .exact 32 [0, 5]⟩, .exact, by simp [WellFormed]⟩
  · exact ⟨.ternary 0 0, 8, .inr ⟨by simp [Ex.brief], .ternary _⟩,
      .inl ⟨⟨2, .ternary [] [0]⟩, by simp [Ex.lengthy], rfl, .ternary 8 [] [0]⟩, .ternary, by simp [WellFormed]⟩
  · exact ⟨.lpm 0 0, 16, .inr ⟨by simp [Ex.brief], .lpm _⟩,
      .inl ⟨⟨3, .lpm [0, 0] 0⟩, by simp [Ex.lengthy], rfl, .lpm 16 [0, 0] 0⟩, .lpm, by simp [WellFormed]⟩
  · exact ⟨.range 0 255, 8, .inr ⟨by simp [Ex.brief], .range 8⟩,
      .inl ⟨⟨4, .range [0] [255]⟩, by simp [Ex.lengthy], rfl, .range 8 [0] [255]⟩, .range, by simp [WellFormed]⟩
  · exact ⟨.ternary 0 0, 4, .inr ⟨by simp [Ex.brief], .optional _⟩, .inr ⟨by simp [Ex.lengthy], .optional _⟩, .optional,
      by simp [WellFormed]⟩

theorem Ex.brief_proper : Proper Ex.keyInfos Ex.brief := proper_of Ex.brief_fits fun ki hk => by
  obtain ⟨v, W, h1, _, h3⟩ := Ex.same_values ki hk
  exact ⟨v, W, h1, h3⟩

theorem Ex.lengthy_proper : Proper Ex.keyInfos Ex.lengthy := proper_of Ex.lengthy_fits fun ki hk => by
  obtain ⟨v, W, _, h2, h3⟩ := Ex.same_values ki hk
  exact ⟨v, W, h2, h3⟩

theorem Ex.same_packets (tc : Str) : SamePackets (Ex.tableDecl tc) Ex.brief Ex.lengthy :=
  ⟨⟨rfl, rfl⟩, rfl, _, Ex.keyInfos_declared tc, Ex.brief_proper, Ex.lengthy_proper,
    hits_of Ex.brief_fits.once Ex.lengthy_fits.once fun ki hk => by
      obtain ⟨v, W, h1, h2, _⟩ := Ex.same_values ki hk
      exact ⟨v, h1, h2⟩⟩

theorem Ex.same_call : SameCall (Ex.action 1 2) ⟨7, [(2, [0, 2]), (1, [1])]⟩ :=
  ⟨rfl, by decide, fun id n => by
    constructor
    · rintro ⟨v, hv, rfl⟩
      simp only [Ex.action, List.mem_cons, List.not_mem_nil, or_false, Prod.mk.injEq] at hv
      rcases hv with ⟨rfl, rfl⟩ | ⟨rfl, rfl⟩
      · exact ⟨[1], by simp, rfl⟩
      · exact ⟨[0, 2], by simp, rfl⟩
    · rintro ⟨v, hv, rfl⟩
      simp only [List.mem_cons, List.not_mem_nil, or_false, Prod.mk.injEq] at hv
      rcases hv with ⟨rfl, rfl⟩ | ⟨rfl, rfl⟩
      · exact ⟨[2], by simp [Ex.action], rfl⟩
      · exact ⟨[1], by simp [Ex.action], rfl⟩⟩

/-- The hypotheses of `C67_same`, and the results. -/
example : reasonEntryViolatesConstraint Ex.brief (Ex.ci c!"ex == 5 && tern::mask == 0" c!"p < q") =
      reasonEntryViolatesConstraint Ex.lengthy (Ex.ci c!"ex == 5 && tern::mask == 0" c!"p < q") ∧
    reasonEntryViolatesConstraint Ex.lengthy (Ex.ci c!"ex == 5 && tern::mask == 0" c!"p < q") = .ok [] ∧
    reasonAction (Ex.action 1 2) (Ex.ci c!"ex == 5" c!"p > q") =
      reasonAction ⟨7, [(2, [0, 2]), (1, [1])]⟩ (Ex.ci c!"ex == 5" c!"p > q") :=
  ⟨C67_same (Ex.get_of_isOk (by decide +kernel)) (List.mem_cons_self) (Ex.same_packets _) (.action Ex.same_call),
    by decide +kernel, C67_action (Ex.get_of_isOk (by decide +kernel)) Ex.same_call⟩

/-- C67: that the values of keys fit their widths is not checked. Without it, two entries that match the same packets may
have different verdicts. -/
theorem C67_canonical : ∃ sys p ci d vs a b, p4ToConstraintInfo sys p = .ok ci ∧ d ∈ p.tables ∧ Each KeyDecl d.matchFields vs ∧
    EntryFits vs a ∧ EntryFits vs b ∧ a.tableId = d.preamble.id ∧ b.tableId = d.preamble.id ∧ a.priority = b.priority ∧
    a.action = none ∧ b.action = none ∧ (∀ x, Hits vs a x ↔ Hits vs b x) ∧
    reasonEntryViolatesConstraint a ci = .ok [] ∧ ∃ m, reasonEntryViolatesConstraint b ci = .ok m ∧ m ≠ [] := by
  have fits : ∀ v m, EntryFits Ex.keyInfos (Ex.ternEntry v m) := fun v m => Ex.fits (by simp [Ex.ternEntry]) (by
    simp only [Ex.ternEntry, List.mem_cons, List.not_mem_nil, or_false]
    rintro _ (rfl | rfl)
    · exact ⟨⟨1, c!"ex", .exact 32⟩, by simp [Ex.keyInfos], rfl, _, .exact ..⟩
    · exact ⟨⟨2, c!"tern", .ternary 8⟩, by simp [Ex.keyInfos], rfl, _, .ternary ..⟩) ⟨_, List.mem_cons_self, rfl⟩
  refine ⟨Ex.sys, Ex.p4info Ex.tcEq Ex.ac1, Ex.ci Ex.tcEq Ex.ac1, Ex.tableDecl Ex.tcEq, Ex.keyInfos, Ex.ternEntry [5] [255],
    Ex.ternEntry [1, 5] [255], Ex.get_of_isOk (by decide +kernel), List.mem_cons_self, Ex.keyInfos_declared _, fits _ _, fits _ _,
    rfl, rfl, rfl, rfl, rfl, fun x => ?_, by decide +kernel, _, rfl, by decide +kernel⟩
  refine forall_congr' fun ki => forall_congr' fun hk => ?_
  by_cases h2 : ki.id = 2
  · simp only [Ex.keyInfos, List.mem_cons, List.not_mem_nil, or_false] at hk
    rcases hk with rfl | rfl | rfl | rfl | rfl <;> simp only [Nat.reduceEqDiff] at h2
    have k1 : KeyValue (Ex.ternEntry [5] [255]) ⟨2, c!"tern", .ternary 8⟩ (.ternary 5 255) :=
      .inl ⟨⟨2, .ternary [5] [255]⟩, by simp [Ex.ternEntry], rfl, .ternary 8 [5] [255]⟩
    have k2 : KeyValue (Ex.ternEntry [1, 5] [255]) ⟨2, c!"tern", .ternary 8⟩ (.ternary 261 255) :=
      .inl ⟨⟨2, .ternary [1, 5] [255]⟩, by simp [Ex.ternEntry], rfl, .ternary 8 [1, 5] [255]⟩
    constructor
    · rintro ⟨W, v, h1, h3, h4, h5⟩
      cases keyValue_once (fits _ _).once k1 h3
      exact ⟨W, _, h1, k2, h4, h5⟩
    · rintro ⟨W, v, h1, h3, h4, h5⟩
      cases keyValue_once (fits _ _).once k2 h3
      exact ⟨W, _, h1, k1, h4, h5⟩
  · refine exists_congr fun W => exists_congr fun v => ?_
    have : KeyValue (Ex.ternEntry [5] [255]) ki v ↔ KeyValue (Ex.ternEntry [1, 5] [255]) ki v := by
      have h2 : ¬ 2 = ki.id := fun h => h2 h.symm
      simp [KeyValue, Ex.ternEntry, h2]
    rw [this]

end P4C
