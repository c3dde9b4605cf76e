import Verif.Props.PriorityField

/-
C114: comparisons of arguments of actions.
-/

namespace P4C

open Spec

section
variable {sys : Sys} {p : P4Info} {ci : ConstraintInfo} (h : p4ToConstraintInfo sys p = .ok ci) (hw : NonNegProgram p)
  {d : ActionDecl} (hd : d ∈ p.actions) {vs : List VarInfo} (hv : Each ParamIs d.params vs) {a : RtAction}
  (hfit : ActionFits vs a) (hid : a.actionId = d.preamble.id)

include h hw hd hv hfit hid

theorem compare_action {o : Cmp} {x y : SExpr} (hs : ActionSays sys.inetPton6 d (.cmp o x y)) (hx : IsNumber ArgVar x)
    (hy : IsNumber ArgVar y) {u w : Option Int} {m n : Int} (hm : NumberIn (ArgNumber d.params a) x u m)
    (hn : NumberIn (ArgNumber d.params a) y w n) :
    reasonAction a ci = .ok [] ↔ o.ofInts (reduced u w m) (reduced w u n) := by
  rw [reasonAction_accepts h hw, formula_action h hd hv hfit hid hs (.compare o hx hy)]
  obtain ⟨ρ, hρ⟩ := actionMeans_some (args_distinct h hd hv) (⟨hfit.known, hfit.once⟩ : ArgsFit vs a.params)
  have sound := fun {e w z} => argNumber_value h hd hv hρ (e := e) (w := w) (z := z)
  constructor
  · rintro ⟨u', m', w', n', h1, h2, h3⟩
    obtain ⟨rfl, rfl⟩ := numberIn_unique sound hm h1
    obtain ⟨rfl, rfl⟩ := numberIn_unique sound hn h2
    exact h3
  · exact fun h3 => ⟨_, _, _, _, hm, hn, h3⟩

/-- C114: an argument is compared with a constant modulo 2^W; the argument is not reduced. -/
theorem C114_constant {o : Cmp} {f : ParamDecl} (hf : f ∈ d.params) (ht : f.typeName = []) {v : Bytes} (hm : (f.id, v) ∈ a.params)
    {e : SExpr} {c : Int} (hc : IsInteger e c) (hs : ActionSays sys.inetPton6 d (.cmp o (.param f.name) e)) :
    reasonAction a ci = .ok [] ↔ o.ofInts (bytesNat v) (c % 2 ^ f.bitwidth.toNat) :=
  compare_action h hw hd hv hfit hid hs (.var (.param _)) (isInteger_number hc) (.given (.param hf ht hm)) (isInteger_numberIn hc)

/-- C114, in part: an argument is compared with a constant from 0 to 2^W - 1. Missing: other constants, see `C114_fails`. -/
theorem C114_partial {o : Cmp} {f : ParamDecl} (hf : f ∈ d.params) (ht : f.typeName = []) {v : Bytes} (hm : (f.id, v) ∈ a.params)
    {e : SExpr} {c : Int} (hc : IsInteger e c) (hs : ActionSays sys.inetPton6 d (.cmp o (.param f.name) e))
    (h0 : 0 ≤ c) (h1 : c < 2 ^ f.bitwidth.toNat) :
    reasonAction a ci = .ok [] ↔ o.ofInts (bytesNat v) c := by
  rw [C114_constant h hw hd hv hfit hid hf ht hm hc hs, Int.emod_eq_of_lt h0 h1]

/-- C114: two arguments are compared as the numbers that they are, of whatever size. -/
theorem C114_two {o : Cmp} {f f' : ParamDecl} (hf : f ∈ d.params) (hf' : f' ∈ d.params) (ht : f.typeName = []) (ht' : f'.typeName = [])
    {v v' : Bytes} (hm : (f.id, v) ∈ a.params) (hm' : (f'.id, v') ∈ a.params)
    (hs : ActionSays sys.inetPton6 d (.cmp o (.param f.name) (.param f'.name))) :
    reasonAction a ci = .ok [] ↔ o.ofInts (bytesNat v) (bytesNat v') :=
  compare_action h hw hd hv hfit hid hs (.var (.param _)) (.var (.param _)) (.given (.param hf ht hm)) (.given (.param hf' ht' hm'))

end

/-- C114: no constraint of a program that is accepted compares parameters of different widths, or mentions one of a named
type. -/
theorem C114_widths {sys : Sys} {p : P4Info} {ci : ConstraintInfo} (h : p4ToConstraintInfo sys p = .ok ci) {d : ActionDecl}
    (hd : d ∈ p.actions) {s : SExpr} (hs : ActionSays sys.inetPton6 d s) {f f' : ParamDecl} (hf : f ∈ d.params) (hf' : f' ∈ d.params) :
    (f.typeName ≠ [] → ¬ Contains s (.param f.name)) ∧
    (f.bitwidth ≠ f'.bitwidth → ∀ o, ¬ Contains s (.cmp o (.param f.name) (.param f'.name))) := by
  obtain ⟨vs, src, e, hv, hr⟩ := hs
  have hdist := args_distinct h hd hv
  have ty : HasTy (paramSig vs) s .boolean := by
    cases hr with
    | some _ _ _ _ h9 => exact h9
  have param : ∀ {f : ParamDecl} {t : Ty}, f ∈ d.params → HasTy (paramSig vs) (.param f.name) t →
      f.typeName = [] ∧ t = .fixedUnsigned f.bitwidth := by
    intro f t hf ht
    obtain ⟨pi, hpi, hfp⟩ := each_mem_left hv f hf
    have hsig := paramSig_of_mem hdist hpi
    cases ht with
    | param h1 h2 =>
      cases hfp with
      | bits id n w =>
        rw [hsig] at h1
        cases h1
        exact ⟨rfl, rfl⟩
      | named =>
        rw [hsig] at h1
        cases h1
        exact absurd rfl (h2.2 _)
  constructor
  · intro hn hc
    obtain ⟨u, hu⟩ := contains_typed hc ty
    exact hn (param hf hu).1
  · intro hne o hc
    obtain ⟨u, hu⟩ := contains_typed hc ty
    cases hu with
    | cmp h1 h2 hj _ =>
      obtain ⟨_, rfl⟩ := param hf h1
      obtain ⟨_, rfl⟩ := param hf' h2
      rw [← lub_iff] at hj
      simp [leastUpperBound, strictlyAbove] at hj
      omega

/-! ### Examples, and the counterexample -/

theorem Ex.argSays : ActionSays Ex.sys.inetPton6 (Ex.actionDecl c!"p != 260") (.cmp .ne (.param c!"p") (.int 260)) :=
  ⟨Ex.params, _, _, .cons (.bits ..) (.cons (.bits ..) .nil), .some (attached_iff.1 (by rfl))
    (tokenize_iff (src := ⟨c!"p != 260", { src := .actionName c!"act" }⟩).1 rfl)
    (parseConstraint_iff.1 (Ex.get_of_isOk (d := .notSet {}) (by decide +kernel))) (by decide +kernel)
    (.cmp (.param (by rfl) ⟨by nofun, by nofun⟩) (.int _) ((lub_iff (t := .fixedUnsigned 8)).1 (by decide +kernel)) (by nofun))⟩

/-- With the constraint `p != 260` an invocation with 5 for `p` is accepted. -/
example : reasonAction (Ex.action 5 1) (Ex.ci c!"true" c!"p != 260") = .ok [] :=
  (C114_constant (sys := Ex.sys) (p := Ex.p4info c!"true" c!"p != 260") (Ex.get_of_isOk (by decide +kernel)) (Ex.nonNeg _ _)
    (d := Ex.actionDecl c!"p != 260") List.mem_cons_self (.cons (.bits ..) (.cons (.bits ..) .nil)) (Ex.actionFits 5 1) rfl
    (f := ⟨1, c!"p", 8, []⟩) List.mem_cons_self rfl (v := [5]) List.mem_cons_self (.int 260) Ex.argSays).2
    (by decide +kernel : (5 : Int) ≠ 260 % 2 ^ 8)

/-- C114 fails as stated: with the constraint `p != 260` a violation is reported for an invocation with 4 for `p`. -/
theorem C114_fails : ¬ ∀ (sys : Sys) (p : P4Info) (ci : ConstraintInfo), p4ToConstraintInfo sys p = .ok ci → NonNegProgram p →
    ∀ d ∈ p.actions, ∀ vs, Each ParamIs d.params vs → ∀ a, ActionFits vs a → a.actionId = d.preamble.id →
    ∀ o, ∀ f ∈ d.params, f.typeName = [] → ∀ v, (f.id, v) ∈ a.params → ∀ e c, IsInteger e c →
    ActionSays sys.inetPton6 d (.cmp o (.param f.name) e) → (reasonAction a ci = .ok [] ↔ o.ofInts (bytesNat v) c) := by
  intro hall
  have h := hall Ex.sys (Ex.p4info c!"true" c!"p != 260") (Ex.ci c!"true" c!"p != 260") (Ex.get_of_isOk (by decide +kernel))
    (Ex.nonNeg _ _) (Ex.actionDecl c!"p != 260") List.mem_cons_self Ex.params (.cons (.bits ..) (.cons (.bits ..) .nil))
    (Ex.action 4 1) (Ex.actionFits 4 1) rfl .ne ⟨1, c!"p", 8, []⟩ List.mem_cons_self rfl [4] List.mem_cons_self _ _ (.int 260) Ex.argSays
  rw [C114_constant (sys := Ex.sys) (p := Ex.p4info c!"true" c!"p != 260") (ci := Ex.ci c!"true" c!"p != 260")
    (Ex.get_of_isOk (by decide +kernel)) (Ex.nonNeg _ _)
    (d := Ex.actionDecl c!"p != 260") List.mem_cons_self (.cons (.bits ..) (.cons (.bits ..) .nil)) (Ex.actionFits 4 1) rfl
    (f := ⟨1, c!"p", 8, []⟩) List.mem_cons_self rfl (v := [4]) List.mem_cons_self (.int 260) Ex.argSays] at h
  exact absurd (h.2 (by decide +kernel : (4 : Int) ≠ 260)) (by decide +kernel : ¬ ((4 : Int) ≠ 260 % 2 ^ 8))

/-- Arguments of any size: 0x0104 is not 4, although the parameters have 8 bits. -/
example : ¬ reasonAction ⟨7, [(1, [1, 4]), (2, [4])]⟩ (Ex.ci c!"true" c!"p <= q") = .ok [] := by
  rw [C114_two (sys := Ex.sys) (p := Ex.p4info c!"true" c!"p <= q") (ci := Ex.ci c!"true" c!"p <= q")
    (Ex.get_of_isOk (by decide +kernel)) (Ex.nonNeg _ _)
    (d := Ex.actionDecl c!"p <= q") List.mem_cons_self (.cons (.bits ..) (.cons (.bits ..) .nil))
    ⟨(Ex.actionFits 1 1).known |> fun h => by
        intro x hx
        rcases List.mem_cons.1 hx with rfl | hx
        · exact h (1, [1]) List.mem_cons_self
        · cases List.mem_singleton.1 hx
          exact h (2, [1]) (List.mem_cons_of_mem _ List.mem_cons_self),
      by decide, fun pi hpi => by
        rcases List.mem_cons.1 hpi with rfl | hpi
        · exact ⟨_, List.mem_cons_self⟩
        · cases List.mem_singleton.1 hpi
          exact ⟨_, List.mem_cons_of_mem _ List.mem_cons_self⟩⟩ rfl
    (f := ⟨1, c!"p", 8, []⟩) (f' := ⟨2, c!"q", 8, []⟩) List.mem_cons_self (List.mem_cons_of_mem _ List.mem_cons_self) rfl rfl
    (v := [1, 4]) (v' := [4]) List.mem_cons_self (List.mem_cons_of_mem _ List.mem_cons_self) Ex.actionSays]
  exact (by decide +kernel : ¬ ((260 : Int) ≤ 4))

theorem Ex.argSmall : ActionSays Ex.sys.inetPton6 (Ex.actionDecl c!"p < 9") (.cmp .lt (.param c!"p") (.int 9)) :=
  ⟨Ex.params, _, _, .cons (.bits ..) (.cons (.bits ..) .nil), .some (attached_iff.1 (by rfl))
    (tokenize_iff (src := ⟨c!"p < 9", { src := .actionName c!"act" }⟩).1 rfl)
    (parseConstraint_iff.1 (Ex.get_of_isOk (d := .notSet {}) (by decide +kernel))) (by decide +kernel)
    (.cmp (.param (by rfl) ⟨by nofun, by nofun⟩) (.int _) ((lub_iff (t := .fixedUnsigned 8)).1 (by decide +kernel)) (fun _ => .bit 8))⟩

example : reasonAction (Ex.action 5 1) (Ex.ci c!"true" c!"p < 9") = .ok [] :=
  (C114_partial (sys := Ex.sys) (p := Ex.p4info c!"true" c!"p < 9") (Ex.get_of_isOk (by decide +kernel)) (Ex.nonNeg _ _)
    (d := Ex.actionDecl c!"p < 9") List.mem_cons_self (.cons (.bits ..) (.cons (.bits ..) .nil)) (Ex.actionFits 5 1) rfl
    (f := ⟨1, c!"p", 8, []⟩) List.mem_cons_self rfl (v := [5]) List.mem_cons_self (.int 9) Ex.argSmall (by decide) (by decide +kernel)).2
    (by decide +kernel : (5 : Int) < 9)

/-- An action with parameters of 8 and 16 bits, and one of a named type. -/
def Ex.mixedDecl : ActionDecl :=
  { preamble := ⟨7, c!"act", [c!"@action_restriction(\"p == 3\")"]⟩
    params := [⟨1, c!"p", 8, []⟩, ⟨2, c!"q", 16, []⟩, ⟨3, c!"port", 0, c!"port_t"⟩] }

theorem Ex.mixedSays : ActionSays Ex.sys.inetPton6 Ex.mixedDecl (.cmp .eq (.param c!"p") (.int 3)) :=
  ⟨_, _, _, .cons (.bits ..) (.cons (.bits ..) (.cons (.named _ _ _ (by decide)) .nil)), .some (attached_iff.1 (by rfl))
    (tokenize_iff (src := ⟨c!"p == 3", { src := .actionName c!"act" }⟩).1 rfl)
    (parseConstraint_iff.1 (Ex.get_of_isOk (d := .notSet {}) (by decide +kernel))) (by decide +kernel)
    (.cmp (.param (by rfl) ⟨by nofun, by nofun⟩) (.int _) ((lub_iff (t := .fixedUnsigned 8)).1 (by decide +kernel)) (by nofun))⟩

example : ∀ o, ¬ Contains (.cmp .eq (.param c!"p") (.int 3)) (.cmp o (.param c!"p") (.param c!"q")) :=
  (C114_widths (sys := Ex.sys) (p := ⟨[], [Ex.mixedDecl]⟩) (Ex.get_of_isOk (d := ⟨[], []⟩) (by decide +kernel)) (d := Ex.mixedDecl) List.mem_cons_self
    Ex.mixedSays (f := ⟨1, c!"p", 8, []⟩) (f' := ⟨2, c!"q", 16, []⟩) List.mem_cons_self (List.mem_cons_of_mem _ List.mem_cons_self)).2 (by decide)

/-- With `p == q` the program is not accepted. -/
example : p4ToConstraintInfo Ex.sys ⟨[], [{ Ex.mixedDecl with preamble := ⟨7, c!"act", [c!"@action_restriction(\"p == q\")"]⟩ }]⟩ =
    .err .invalidArgument := by decide +kernel

end P4C
