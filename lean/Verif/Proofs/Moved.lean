import Verif.Spec.Moved
import Verif.Proofs.Obtain

/-
Lemmas for C98: the same text says the same, attached or added.
-/

namespace P4C

open Spec

theorem lexed_same_tokens {l l' : Loc} {text : Str} {ts ts' : List Token} (h : Lexed l text ts) (h' : Lexed l' text ts') :
    ts.map kindText = ts'.map kindText := by
  have h1 : tokenize ⟨text, l⟩ = ts := tokenize_iff.2 h
  have h2 : tokenize ⟨text, l'⟩ = ts' := tokenize_iff.2 h'
  rw [← h1, ← h2, tokens_src, tokens_src]

theorem textSays_congr {pton : Str → Option Bytes} {a d : TableDecl} (hk : a.matchFields = d.matchFields) {text : Str} {s : SExpr}
    (h : TextSays pton a text s) : TextSays pton d text s := by
  obtain ⟨vs, ts, e, h1, h2, h3, h4, h5⟩ := h
  have hl : Lexed { src := .tableName d.preamble.name } text (tokenize ⟨text, { src := .tableName d.preamble.name }⟩) :=
    tokenize_lexed ⟨text, { src := .tableName d.preamble.name }⟩
  obtain ⟨e', g1, g2⟩ := constraint_same h3 (sameToks_of_kindText (lexed_same_tokens h2 hl))
  exact ⟨vs, _, e', hk ▸ h1, hl, g1, g2.trans h4, h5⟩

/-- What a table says is what its text says. -/
theorem tableSays_text {pton : Str → Option Bytes} {d : TableDecl} {text : Str} (h : Says .table d.preamble text) {s : SExpr} :
    TableSays pton d s ↔ TextSays pton d text s := by
  obtain ⟨src, ha, hs⟩ := h
  subst hs
  constructor
  · rintro ⟨vs, src', e, hk, hr⟩
    cases hr with
    | some h1 h2 h3 h4 h5 =>
      cases attached_unique ha h1
      have hl : Lexed { src := .tableName d.preamble.name } src.str
        (tokenize ⟨src.str, { src := .tableName d.preamble.name }⟩) :=
          tokenize_lexed ⟨src.str, { src := .tableName d.preamble.name }⟩
      obtain ⟨e', g1, g2⟩ := constraint_same h3 (sameToks_of_kindText (lexed_same_tokens h2 hl))
      exact ⟨vs, _, e', hk, hl, g1, g2.trans h4, h5⟩
  · rintro ⟨vs, ts, e, hk, h2, h3, h4, h5⟩
    have hl : Lexed src.loc src.str (tokenize ⟨src.str, src.loc⟩) := tokenize_lexed ⟨src.str, src.loc⟩
    obtain ⟨e', g1, g2⟩ := constraint_same h3 (sameToks_of_kindText (lexed_same_tokens h2 hl))
    exact ⟨vs, src, e', hk, .some ha hl g1 (g2.trans h4) h5⟩

theorem signedTrueOf_congr {a d : TableDecl} (hk : a.matchFields = d.matchFields) {e : RtEntry} {s : SExpr}
    (h : SignedTrueOf a e s) : SignedTrueOf d e s := by
  obtain ⟨vs, ρ, h1, h2⟩ := h
  exact ⟨vs, ρ, hk ▸ h1, h2⟩

theorem mentionable_congr {a d : TableDecl} (hk : a.matchFields = d.matchFields) {skip : Str → Bool} {s : SExpr}
    (h : Mentionable a skip s) : Mentionable d skip s := by
  obtain ⟨vs, h1, h2⟩ := h
  exact ⟨vs, hk ▸ h1, h2⟩

theorem allSupported_congr {a d : TableDecl} (hk : a.matchFields = d.matchFields) {skip : Str → Bool}
    (h : AllSupported a skip) : AllSupported d skip := fun vs hv => h vs (hk ▸ hv)

theorem solvable_congr {a d : TableDecl} (hk : a.matchFields = d.matchFields) {skip : Str → Bool}
    (h : Solvable a skip) : Solvable d skip :=
  ⟨fun vs hv => h.omittable vs (hk ▸ hv), hk ▸ h.noNul, hk ▸ h.noMask, hk ▸ h.widths⟩

theorem keysNameable_congr {a d : TableDecl} (hk : a.matchFields = d.matchFields) {skip : Str → Bool}
    (h : KeysNameable a skip) : KeysNameable d skip := fun f hf => h f (hk ▸ hf)

theorem moved_solution {pton : Str → Option Bytes} {text : Str} {a d : TableDecl} (h : Moved text a d) {skip : Str → Bool}
    {texts texts' : List Str} (ht : ∀ t, t ∈ texts' ↔ t = text ∨ t ∈ texts) (e : RtEntry) :
    SignedSolution pton d skip texts e ↔ SignedSolution pton a skip texts' e := by
  have canon : ∀ {x y : TableDecl}, x.preamble.id = y.preamble.id → x.matchFields = y.matchFields →
      CanonicalFor x skip e → CanonicalFor y skip e := by
    rintro x y h1 h2 ⟨h3, vs, h4, h5⟩
    exact ⟨h3.trans h1, vs, h2 ▸ h4, h5⟩
  constructor
  · intro hs
    refine ⟨canon h.id.symm h.keys.symm hs.canonical, .inl h.free, fun t hm => ?_⟩
    rcases (ht t).1 hm with rfl | hm
    · rcases hs.table with hn | ⟨s, h1, h2⟩
      · exact (says_attached h.attached hn).elim
      · exact ⟨s, textSays_congr h.keys.symm ((tableSays_text h.attached).1 h1), signedTrueOf_congr h.keys.symm h2⟩
    · obtain ⟨s, h1, h2⟩ := hs.texts t hm
      exact ⟨s, textSays_congr h.keys.symm h1, signedTrueOf_congr h.keys.symm h2⟩
  · intro hs
    refine ⟨canon h.id h.keys hs.canonical, .inr ?_, fun t hm => ?_⟩
    · obtain ⟨s, h1, h2⟩ := hs.texts text ((ht text).2 (.inl rfl))
      exact ⟨s, (tableSays_text h.attached).2 (textSays_congr h.keys h1), signedTrueOf_congr h.keys h2⟩
    · obtain ⟨s, h1, h2⟩ := hs.texts t ((ht t).2 (.inr hm))
      exact ⟨s, textSays_congr h.keys h1, signedTrueOf_congr h.keys h2⟩

end P4C
