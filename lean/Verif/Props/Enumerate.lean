import Verif.Proofs.Enumerate
import Verif.Props.Obtain

/-
C97: enumerating the entries of a table.
-/

namespace P4C

open Spec

section
variable {sys : Sys} {p : P4Info} {ci : ConstraintInfo} (h : p4ToConstraintInfo sys p = .ok ci) {d : TableDecl}
  (hd : d ∈ p.tables) {ti : TableInfo} (hti : lookup d.preamble.id ci.tables = some ti) {skip : Str → Bool}
  (hs : Solvable d skip) {z : Z3Oracle} (hz : z.Sound) {s : Solver} {texts : List Str} (hr : SolverRun z sys ti skip s texts)

include h hd hti hs hz hr

/-- C97: if entries are requested and excluded one after the other, all of them satisfy what was accepted at the beginning, no
two are the same, and there are at most `2 ^ (31 + 2 * n)` where `n` is the number of bits of the keys. -/
theorem C97_distinct {entries : List RtEntry} {s' : Solver} (he : Enumeration z sys d skip s entries s') :
    (∀ e ∈ entries, SignedSolution sys.inetPton6 d skip texts e) ∧ (entries.Pairwise fun a b => ¬ SameUpToOrder a b) ∧
    entries.length ≤ 2 ^ (31 + 2 * keyBits d) := by
  obtain ⟨_, _, _, h1, h2⟩ := enumeration_run h hd hti hs hz hr he
  exact ⟨h1, h2, canonical_finite h hd hs (run_supported h hd hti hr) (fun e he => (h1 e he).canonical) h2⟩

/-- C97: as long as not all have been returned, enumerating can be continued, and it ends with all of them: there always is a next
entry, there is a text that excludes it, and every such text is accepted if and only if an entry is missing. -/
theorem C97_next (hdec : Z3Oracle.Decides z) (hip : Z3Oracle.InterpretsPriority z) (hn : KeysNameable d skip)
    {entries : List RtEntry} {s' : Solver} (he : Enumeration z sys d skip s entries s') :
    ∃ entry s'', s'.concretize z = (.ok entry, s'') ∧ (∀ e ∈ entries, ¬ SameUpToOrder entry e) ∧
      (∃ text, Excludes sys.inetPton6 d skip text entry) ∧
      ∀ text, Excludes sys.inetPton6 d skip text entry →
        ((s''.addConstraintStr z sys text).1 = .ok true ↔
          ∃ o, SignedSolution sys.inetPton6 d skip texts o ∧ ∀ e ∈ entry :: entries, ¬ SameUpToOrder o e) ∧
        ((s''.addConstraintStr z sys text).1 = .ok false ↔
          ∀ o, SignedSolution sys.inetPton6 d skip texts o → ∃ e ∈ entry :: entries, SameUpToOrder o e) := by
  obtain ⟨texts', h1, h2, _, _⟩ := enumeration_run h hd hti hs hz hr he
  obtain ⟨entry, s'', hc⟩ := concretize_always h hd hti hs hz hdec h1 hip
  have h3 := (signed_concretize_solves h hd hti hs hz h1 hc).1
  refine ⟨entry, s'', hc, ((h2 _).1 h3).2, excludes_exists h hd hti hs hr hn h3.canonical, fun text hx => ?_⟩
  obtain ⟨a1, a2⟩ := signed_add_solves h hd hti hs hz hdec (.concretize h1 hc) (text := text)
  obtain ⟨se, g1, g2, _⟩ := id hx
  have a3 : (s''.addConstraintStr z sys text).1 = .ok true ↔
      ∃ o, SignedSolution sys.inetPton6 d skip texts o ∧ ∀ e ∈ entry :: entries, ¬ SameUpToOrder o e := by
    rw [a2]
    simp only [excludes_cons h hd hti hx, h2, List.mem_cons, forall_eq_or_imp]
    constructor
    · exact fun ⟨_, o, h5, h6⟩ => ⟨o, h5.1, h6, h5.2⟩
    · exact fun ⟨o, h5, h6, h7⟩ => ⟨⟨se, g1, g2⟩, o, ⟨h5, h7⟩, h6⟩
  refine ⟨a3, ?_⟩
  obtain ⟨b, hb⟩ := a1.2 ⟨se, g1, g2⟩
  rw [hb] at a3 ⊢
  cases b with
  | false =>
    simp only [Res.ok.injEq, Bool.false_eq_true, false_iff, not_exists, not_and, Classical.not_forall, Classical.not_not] at a3
    simp only [true_iff]
    exact fun o ho => by simpa only [exists_prop] using a3 o ho
  | true =>
    obtain ⟨o, h4, h5⟩ := a3.1 rfl
    simp only [Res.ok.injEq, Bool.true_eq_false, false_iff]
    intro hx'
    obtain ⟨e, h6, h7⟩ := hx' o h4
    exact h5 e h6 h7

/-- C97: so enumerating ends, with a list of all entries that satisfy what was accepted at the beginning. -/
theorem C97_ends (hdec : Z3Oracle.Decides z) (hip : Z3Oracle.InterpretsPriority z) (hn : KeysNameable d skip) :
    ∃ entries s1 last s2 text s3, Enumeration z sys d skip s entries s1 ∧ s1.concretize z = (.ok last, s2) ∧
      Excludes sys.inetPton6 d skip text last ∧ s2.addConstraintStr z sys text = (.ok false, s3) ∧
      ∀ o, SignedSolution sys.inetPton6 d skip texts o ↔ ∃ e ∈ last :: entries, SameUpToOrder o e := by
  suffices H : ∀ n entries s1, Enumeration z sys d skip s entries s1 → 2 ^ (31 + 2 * keyBits d) + 1 ≤ n + entries.length →
      ∃ entries s1 last s2 text s3, Enumeration z sys d skip s entries s1 ∧ s1.concretize z = (.ok last, s2) ∧
      Excludes sys.inetPton6 d skip text last ∧ s2.addConstraintStr z sys text = (.ok false, s3) ∧
      ∀ o, SignedSolution sys.inetPton6 d skip texts o ↔ ∃ e ∈ last :: entries, SameUpToOrder o e from
    H _ [] s .start (Nat.le_refl _)
  intro n
  induction n with
  | zero =>
    intro entries s1 he hlen
    have := (C97_distinct h hd hti hs hz hr he).2.2
    omega
  | succ n ih =>
    intro entries s1 he hlen
    obtain ⟨entry, s2, hc, _, ⟨text, hx⟩, hall⟩ := C97_next h hd hti hs hz hr hdec hip hn he
    obtain ⟨h1, h2⟩ := hall text hx
    generalize ha : s2.addConstraintStr z sys text = x at h1 h2
    obtain ⟨r, s3⟩ := x
    dsimp only at h1 h2
    by_cases hmore : ∃ o, SignedSolution sys.inetPton6 d skip texts o ∧ ∀ e ∈ entry :: entries, ¬ SameUpToOrder o e
    · cases h1.2 hmore
      exact ih _ _ (.next he hc hx ha) (by simp only [List.length_cons]; omega)
    · have hend : ∀ o, SignedSolution sys.inetPton6 d skip texts o → ∃ e ∈ entry :: entries, SameUpToOrder o e := by
        intro o ho
        exact Classical.byContradiction fun hno => hmore ⟨o, ho, fun e h3 h4 => hno ⟨e, h3, h4⟩⟩
      cases h2.2 hend
      refine ⟨entries, s1, entry, s2, text, s3, he, hc, hx, ha, fun o => ⟨hend o, ?_⟩⟩
      rintro ⟨e, h3, h4⟩
      refine sameUpToOrder_solution (sameUpToOrder_symm h4) ?_
      obtain ⟨_, g1, g2, g3, _⟩ := enumeration_run h hd hti hs hz hr he
      rcases List.mem_cons.1 h3 with rfl | h3
      · exact ((g2 _).1 (signed_concretize_solves h hd hti hs hz g1 hc).1).1
      · exact g3 e h3

end

/-- The entries of the table of the example that satisfy its constraint can be enumerated. -/
example : ∃ s entries s' last, SolverRun Ex.perfect Ex.sys (Ex.symTi Ex.d1) (fun _ => false) s [] ∧
    Enumeration Ex.perfect Ex.sys Ex.d1 (fun _ => false) s entries s' ∧
    (∃ e ∈ last :: entries, SameUpToOrder Ex.e1 e) ∧ (∃ e ∈ last :: entries, SameUpToOrder Ex.e1other e) ∧ entries ≠ [] ∧
    entries.length ≤ 2 ^ 151 := by
  have hd : Ex.d1 ∈ (Ex.symInfo Ex.d1).tables := List.mem_singleton.2 rfl
  obtain ⟨s, hs, _⟩ := Ex.solve_accepted Ex.perfect_sound Ex.perfect_decides
  have hr : SolverRun Ex.perfect Ex.sys (Ex.symTi Ex.d1) (fun _ => false) s [] := .create hs
  obtain ⟨entries, s', last, _, _, _, he, _, _, _, hall⟩ := C97_ends Ex.solve_ci hd Ex.solve_ti Ex.solvable1 Ex.perfect_sound
    hr Ex.perfect_decides Ex.perfect_priority Ex.keysNameable1
  obtain ⟨h1, h2⟩ := Ex.solutions1
  have h3 := (C97_distinct Ex.solve_ci hd Ex.solve_ti Ex.solvable1 Ex.perfect_sound hr he).2.2
  have hbits : keyBits Ex.d1 = 60 := by decide +kernel
  rw [hbits] at h3
  refine ⟨s, entries, s', last, hr, he, (hall _).1 h1, (hall _).1 h2, ?_, h3⟩
  rintro rfl
  obtain ⟨e, h4, h5⟩ := (hall _).1 h1
  obtain ⟨e', h6, h7⟩ := (hall _).1 h2
  cases List.mem_singleton.1 h4
  cases List.mem_singleton.1 h6
  have := h5.priority.trans h7.priority.symm
  revert this
  decide

end P4C
