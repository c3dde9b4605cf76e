import Verif.Spec.Weaken
import Verif.Proofs.Formula
import Verif.Proofs.Violation
import Verif.Proofs.ComposeVerdict

/-
Lemmas for C91.
-/

namespace P4C

open Spec

theorem conn_inv {Γ : Sig} {ρ : Env} {o : Spec.Conn} {l r : SExpr} {c : Bool}
    (h : Evaluates Γ ρ (.conn o l r) .boolean (.bool c)) :
    ∃ a b, Evaluates Γ ρ l .boolean (.bool a) ∧ (DecidedLeft o a ∨ Evaluates Γ ρ r .boolean (.bool b)) ∧ c = o.apply a b := by
  generalize hx : Value.bool c = x at h
  cases h with
  | @decided _ _ _ a b h1 h2 => cases hx; exact ⟨a, b, h1, .inl h2, rfl⟩
  | @conn _ _ _ a b h1 h2 => cases hx; exact ⟨a, b, h1, .inr h2, rfl⟩

theorem not_inv {Γ : Sig} {ρ : Env} {e : SExpr} {c : Bool} (h : Evaluates Γ ρ (.not e) .boolean (.bool c)) :
    Evaluates Γ ρ e .boolean (.bool (!c)) := by
  generalize hx : Value.bool c = x at h
  cases h with
  | @not _ b h1 => cases hx; simpa using h1

/-- The values of a constraint and of a weaker one. -/
theorem weakened_value {Γ : Sig} {ρ : Env} {R : SExpr → SExpr → Prop}
    (hR : ∀ s s', R s s' → Evaluates Γ ρ s .boolean (.bool true) → ¬ Evaluates Γ ρ s' .boolean (.bool false))
    {up : Bool} {s s' : SExpr} (h : Weakened R up s s') :
    Evaluates Γ ρ s .boolean (.bool up) → ¬ Evaluates Γ ρ s' .boolean (.bool (!up)) := by
  have uniq : ∀ {s : SExpr} {a b : Bool}, Evaluates Γ ρ s .boolean (.bool a) → Evaluates Γ ρ s .boolean (.bool b) → a = b :=
    fun h1 h2 => by simpa using (evaluates_unique h1 h2).2
  induction h with
  | same up s => intro h1 h2; have := uniq h1 h2; revert this; cases up <;> decide
  | weaker h => exact hR _ _ h
  | stronger h => exact fun h1 h2 => hR _ _ h h2 h1
  | not _ ih => exact fun h1 h2 => ih (not_inv h1) (by simpa using not_inv h2)
  | @and up s s' u u' _ _ ih1 ih2 =>
    intro h1 h2
    obtain ⟨a, b, h3, h4, h5⟩ := conn_inv h1
    obtain ⟨a', b', h6, h7, h8⟩ := conn_inv h2
    clear uniq hR h1 h2
    cases up <;> cases a <;> cases a' <;> cases b <;> cases b' <;> grind [Spec.Conn.apply, DecidedLeft]
  | @or up s s' u u' _ _ ih1 ih2 =>
    intro h1 h2
    obtain ⟨a, b, h3, h4, h5⟩ := conn_inv h1
    obtain ⟨a', b', h6, h7, h8⟩ := conn_inv h2
    clear uniq hR h1 h2
    cases up <;> cases a <;> cases a' <;> cases b <;> cases b' <;> grind [Spec.Conn.apply, DecidedLeft]
  | @implies up s s' u u' _ _ ih1 ih2 =>
    intro h1 h2
    obtain ⟨a, b, h3, h4, h5⟩ := conn_inv h1
    obtain ⟨a', b', h6, h7, h8⟩ := conn_inv h2
    clear uniq hR h1 h2
    cases up <;> cases a <;> cases a' <;> cases b <;> cases b' <;> grind [Spec.Conn.apply, DecidedLeft]

section
variable {sys : Sys} {ts : List TableDecl} {as : List ActionDecl} {d d' : TableDecl} {ci ci' : ConstraintInfo}
  (hw : NonNegProgram ⟨d :: ts, as⟩) (hw' : NonNegProgram ⟨d' :: ts, as⟩) (h : p4ToConstraintInfo sys ⟨d :: ts, as⟩ = .ok ci)
  (h' : p4ToConstraintInfo sys ⟨d' :: ts, as⟩ = .ok ci') (hk : SameTableKeys d d')
  {s s' : SExpr} (hs : TableSays sys.inetPton6 d s) (hs' : TableSays sys.inetPton6 d' s')
  {vs : List VarInfo} (hv : Each KeyDecl d.matchFields vs) {entry : RtEntry}
  (hx : Weakened (Entails vs entry) true s s')

include hk hs hs' hv hx in
/-- The weaker constraint is not false if the other one is true. -/
theorem weakened_table (h1 : TableValue sys.inetPton6 d entry true) : ¬ TableValue sys.inetPton6 d' entry false := by
  intro h2
  obtain ⟨v1, src1, e1, hv1, hr1⟩ := hs
  obtain ⟨v2, src2, e2, hv2, hr2⟩ := hs'
  rw [← hk.keys] at hv2
  cases each_unique (R := KeyDecl) (fun _ _ _ => keyDecl_unique) hv hv1
  cases each_unique (R := KeyDecl) (fun _ _ _ => keyDecl_unique) hv hv2
  obtain ⟨_, _, ρ, hρ, g1⟩ := (tableValue_iff hv hr1 true).1 h1
  obtain ⟨_, _, ρ', hρ', g2⟩ := (tableValue_iff (hk.keys ▸ hv) hr2 false).1 h2
  cases entryMeans_det hρ hρ'
  exact weakened_value (fun _ _ h => h ρ hρ) hx g1 g2

include hs in
theorem says_accepted (h1 : Attached .table d.preamble none ∨ TableValue sys.inetPton6 d entry true) :
    TableValue sys.inetPton6 d entry true := by
  rcases h1 with h1 | h1
  · obtain ⟨_, _, _, _, hr⟩ := hs
    cases hr with
    | some h5 => cases attached_unique h1 h5
  · exact h1

include hw hw' h h' hk hs hs' hv hx in
theorem weakened_reason (h1 : reasonEntryViolatesConstraint entry ci = .ok []) {m : Str}
    (h2 : reasonEntryViolatesConstraint entry ci' = .ok m) : m = [] := by
  rw [reason_accepts h hw] at h1
  by_cases hm : m = []
  · exact hm
  obtain ⟨e, he, hid, ht, ha⟩ := h1
  obtain ⟨e', he', hid', hy⟩ := (reason_reports h' hw').1 ⟨h2, hm⟩
  have hact : ∀ l, actionsOf entry.action = some l → ∀ a ∈ l, ActionAccepted sys.inetPton6 ⟨d :: ts, as⟩ a := by
    intro l hl a ham
    generalize entry.action = t at ha hl
    cases ha with
    | none => cases hl; cases ham
    | one h => cases hl; cases List.mem_singleton.1 ham; exact h
    | set h => cases hl; exact h a ham
  rcases hy with hy | ⟨_, pre, a, post, g1, _, da, g2, g3, g4⟩
  · obtain ⟨v, src, x, y, u, ρ, _, _, _, _, k1, k2, k3, k4, k5, _⟩ := hy
    have hval : TableValue sys.inetPton6 e' entry false := ⟨v, src, x, u, ρ, k1, k2, k3, k4, k5⟩
    obtain ⟨hnd, _⟩ := p4ToConstraintInfo_succeeds.1 ⟨ci, h⟩
    obtain ⟨hnd', _⟩ := p4ToConstraintInfo_succeeds.1 ⟨ci', h'⟩
    rcases List.mem_cons.1 he with rfl | he
    · cases inj_of_nodup_map hnd' (a := d') (by simp) he' (by rw [hid', ← hid, hk.ids])
      exact (weakened_table hk hs hs' hv hx (says_accepted hs ht) hval).elim
    · cases inj_of_nodup_map hnd' (List.mem_cons_of_mem _ he) he' (by rw [hid', ← hid])
      rcases ht with ht | ht
      · cases k2 with
        | some h5 => cases attached_unique ht h5
      · exact (tableValue_unique ⟨ht, hval⟩).elim
  · have r1 := (reasonAction_reports h' hw').2 ⟨da, g2, g3, g4⟩
    have r2 := (reasonAction_accepts h' hw' (a := a)).2 (hact _ g1 a (by simp))
    rw [r2] at r1
    simp at r1

include hw hw' h h' hk hs hs' hv hx in
/-- If the weaker constraint does not order keys, then it has a value. -/
theorem weakened_accepts (ho : ∀ x, Contains s' x → ¬ OrdersKey x) (h1 : reasonEntryViolatesConstraint entry ci = .ok []) :
    reasonEntryViolatesConstraint entry ci' = .ok [] := by
  rw [reason_accepts h hw] at h1
  obtain ⟨e, he, hid, ht, ha⟩ := h1
  have ha' : ActionsAccepted sys.inetPton6 ⟨d' :: ts, as⟩ entry.action := actionsAccepted_congr (by rfl) ha
  rw [reason_accepts h' hw']
  rcases List.mem_cons.1 he with rfl | he
  · have hval := says_accepted hs ht
    refine ⟨d', by simp, by rw [← hk.ids, hid], .inr ?_, ha'⟩
    have hno := weakened_table hk hs hs' hv hx hval
    obtain ⟨v2, src2, e2, hv2, hr2⟩ := hs'
    have hv' : Each KeyDecl d'.matchFields vs := hk.keys ▸ hv
    cases each_unique (R := KeyDecl) (fun _ _ _ => keyDecl_unique) hv' hv2
    obtain ⟨v, _, _, _, ρ, k1, _, k3, k4, _⟩ := hval
    cases each_unique (R := KeyDecl) (fun _ _ _ => keyDecl_unique) hv k1
    have hty : HasTy (keySig vs) s' .boolean := by
      cases hr2 with
      | some _ _ _ _ h9 => exact h9
    obtain ⟨P, hP⟩ := formula_exists hv' (hw'.1 d' (by simp)) entry hty ho
    obtain ⟨b, g1, _⟩ := formula_value (entryNumber_value h' (d := d') (by simp) hv' k3 k4) (entryNumber_exists h' (d := d') (by simp) hv' k3)
      (keyIs_value h' (d := d') (by simp) hv' k3 k4) (fun ha ht => by cases ha <;> cases ht <;> rfl) hP hty
    cases b with
    | true => exact (tableValue_iff hv' hr2 true).2 ⟨rfl, k3, ρ, k4, g1⟩
    | false => exact (hno ((tableValue_iff hv' hr2 false).2 ⟨rfl, k3, ρ, k4, g1⟩)).elim
  · exact ⟨e, List.mem_cons_of_mem _ he, hid, ht, ha'⟩

end

section
variable {sys : Sys} {ts : List TableDecl} {as : List ActionDecl} {d d' : ActionDecl} {ci ci' : ConstraintInfo}
  (hw : NonNegProgram ⟨ts, d :: as⟩) (hw' : NonNegProgram ⟨ts, d' :: as⟩) (h : p4ToConstraintInfo sys ⟨ts, d :: as⟩ = .ok ci)
  (h' : p4ToConstraintInfo sys ⟨ts, d' :: as⟩ = .ok ci') (hk : SameActionParams d d')
  {s s' : SExpr} (hs : ActionSays sys.inetPton6 d s) (hs' : ActionSays sys.inetPton6 d' s')
  {vs : List VarInfo} (hv : Each ParamIs d.params vs) {a : RtAction}
  (hx : Weakened (ArgsEntail vs a) true s s')

include hk hs hs' hv hx in
theorem weakened_action (h1 : ActionValue sys.inetPton6 d a true) : ¬ ActionValue sys.inetPton6 d' a false := by
  intro h2
  obtain ⟨v1, src1, e1, hv1, hr1⟩ := hs
  obtain ⟨v2, src2, e2, hv2, hr2⟩ := hs'
  rw [← hk.params] at hv2
  cases each_unique (R := ParamIs) (fun _ _ _ => paramIs_unique) hv hv1
  cases each_unique (R := ParamIs) (fun _ _ _ => paramIs_unique) hv hv2
  obtain ⟨_, _, ρ, hρ, g1⟩ := (actionValue_iff hv hr1 true).1 h1
  obtain ⟨_, _, ρ', hρ', g2⟩ := (actionValue_iff (hk.params ▸ hv) hr2 false).1 h2
  cases actionMeans_unique hρ hρ'
  exact weakened_value (fun _ _ h => h ρ hρ) hx g1 g2

include hw hw' h h' hk hs hs' hv hx in
theorem weakened_reasonAction (h1 : reasonAction a ci = .ok []) {m : Str} (h2 : reasonAction a ci' = .ok m) : m = [] := by
  rw [reasonAction_accepts h hw] at h1
  by_cases hm : m = []
  · exact hm
  obtain ⟨e, he, hid, ht⟩ := h1
  obtain ⟨e', he', hid', hy⟩ := (reasonAction_reports h' hw').1 ⟨h2, hm⟩
  obtain ⟨v, src, x, y, u, ρ, _, _, _, k1, k2, k3, k4, k5, _⟩ := hy
  have hval : ActionValue sys.inetPton6 e' a false := ⟨v, src, x, u, ρ, k1, k2, k3, k4, k5⟩
  obtain ⟨_, hnd', _⟩ := p4ToConstraintInfo_succeeds.1 ⟨ci', h'⟩
  rcases List.mem_cons.1 he with rfl | he
  · cases inj_of_nodup_map hnd' (a := d') (by simp) he' (by rw [hid', ← hid, hk.ids])
    have ht' : ActionValue sys.inetPton6 e a true := by
      rcases ht with ht | ht
      · obtain ⟨_, _, _, _, hr⟩ := hs
        cases hr with
        | some h5 => cases attached_unique ht h5
      · exact ht
    exact (weakened_action hk hs hs' hv hx ht' hval).elim
  · cases inj_of_nodup_map hnd' (List.mem_cons_of_mem _ he) he' (by rw [hid', ← hid])
    rcases ht with ht | ht
    · cases k2 with
      | some h5 => cases attached_unique ht h5
    · exact (actionValue_unique ⟨ht, hval⟩).elim

include hw hw' h h' hk hs hs' hv hx in
/-- If all arguments are given and the weaker constraint does not mention attributes, then it has a value. -/
theorem weakened_acceptsAction (hfit : ActionFits vs a) (hn : ∀ n, ¬ Contains s' (.attr n)) (h1 : reasonAction a ci = .ok []) :
    reasonAction a ci' = .ok [] := by
  rw [reasonAction_accepts h hw] at h1
  rw [reasonAction_accepts h' hw']
  obtain ⟨e, he, hid, ht⟩ := h1
  rcases List.mem_cons.1 he with rfl | he
  · have ht' : ActionValue sys.inetPton6 e a true := by
      rcases ht with ht | ht
      · obtain ⟨_, _, _, _, hr⟩ := hs
        cases hr with
        | some h5 => cases attached_unique ht h5
      · exact ht
    have hno := weakened_action hk hs hs' hv hx ht'
    refine ⟨d', by simp, by rw [← hk.ids, hid], .inr ?_⟩
    obtain ⟨v2, src2, e2, hv2, hr2⟩ := hs'
    have hv' : Each ParamIs d'.params vs := hk.params ▸ hv
    cases each_unique (R := ParamIs) (fun _ _ _ => paramIs_unique) hv' hv2
    have hargs : ArgsFit vs a.params := ⟨hfit.known, hfit.once⟩
    obtain ⟨ρ, hρ⟩ := actionMeans_some (args_distinct h' (d := d') (by simp) hv') hargs
    have hty : HasTy (paramSig vs) s' .boolean := by
      cases hr2 with
      | some _ _ _ _ h9 => exact h9
    obtain ⟨P, hP⟩ := formula_action_exists hv' a hty hn
    obtain ⟨b, g1, _⟩ := formula_value (argNumber_value h' (d := d') (by simp) hv' hρ) (argNumber_exists hv' hfit) nofun nofun hP hty
    cases b with
    | true => exact (actionValue_iff hv' hr2 true).2 ⟨rfl, hargs, ρ, hρ, g1⟩
    | false => exact (hno ((actionValue_iff hv' hr2 false).2 ⟨rfl, hargs, ρ, hρ, g1⟩)).elim
  · exact ⟨e, List.mem_cons_of_mem _ he, hid, ht⟩

end

end P4C
