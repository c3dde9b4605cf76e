import Verif.Proofs.ComposeVerdict
import Verif.Proofs.GrammarMore
import Verif.Proofs.Packets
import Verif.Spec.Express

namespace P4C

open Spec

/-! ### Printed constraints have no quotation marks and no NUL characters -/

theorem letter_quotes {c : Char} (h : Letter c ∨ Digit c) : c ≠ '"' ∧ c ≠ '\x00' := by
  refine ⟨?_, ?_⟩ <;>
  · rintro rfl
    revert h
    simp [Letter, Digit]

theorem spells_chars {k : Kind} {s l : Str} (h : Spells k s l) (hl : s.length = l.length) : ∀ c ∈ s, c ≠ '"' ∧ c ≠ '\x00' := by
  cases h with
  | keyword h =>
    revert h
    have : ∀ p ∈ keywords, ∀ c ∈ p.2, c ≠ '"' ∧ c ≠ '\x00' := by decide
    exact fun h => this _ h
  | id h1 h2 =>
    intro c hc
    rcases List.mem_cons.1 hc with rfl | hc
    · exact letter_quotes (.inl h1)
    · exact letter_quotes (h2 c hc)
  | decimal h1 h2 => exact fun c hc => letter_quotes (.inr (h2 c hc))
  | binary | octary | hexadec | decimalD | string => simp at hl <;> omega

theorem text_chars {ts : List (Kind × Str)} (h : ∀ t ∈ ts, Plain t) : ∀ c ∈ toText ts, c ≠ '"' ∧ c ≠ '\x00' := by
  intro c hc
  simp only [toText, List.mem_flatten, List.mem_map] at hc
  obtain ⟨l, ⟨t, ht, rfl⟩, hc⟩ := hc
  rcases List.mem_append.1 hc with hc | hc
  · exact spells_chars (h t ht).1 rfl c hc
  · simp only [List.mem_cons, List.not_mem_nil, or_false] at hc
    subst hc
    decide

/-! ### Reading what is written -/

theorem restricted_attached {k : ConstraintKind} {p : Preamble} (hb : Bare k p) {text : Str} (hq : '"' ∉ text)
    (hn : '\x00' ∉ text) : ∃ src, Attached k (restricted k p text) (some src) ∧ src.str = text := by
  obtain ⟨f, n, hp⟩ := position_exists p.annotations
  refine ⟨_, .text (pre := p.annotations) (post := []) (body := c!"(\"" ++ text ++ c!"\")") (rest := []) (parts := [text])
    (by simp [restricted]) hb ?_ nofun ⟨by simp, by simpa using hq, by simp [join]⟩ hp, rfl⟩
  simp only [List.mem_append, not_or]
  exact ⟨⟨by decide, hn⟩, by decide⟩

theorem read_written {sys : Sys} {k : ConstraintKind} {num : Nat → Str} (hnum : ∀ n, NumVal 10 (num n) n) {p : Preamble}
    (hb : Bare k p) {s : SExpr} (hs : Writable k s) {Γ : Sig} {t : Ty} (ht : HasTy Γ s t) :
    ∃ src e, ReadConstraint sys.inetPton6 k Γ (restricted k p (toText (print num s 0))) (some (src, e, s, t)) := by
  have hc := text_chars (print_plain hnum s hs 0)
  obtain ⟨src, h1, h2⟩ := restricted_attached hb (fun h => (hc _ h).1 rfl) (fun h => (hc _ h).2 rfl)
  have htok : (tokenize src).map kindText = print num s 0 ++ [(.endOfInput, [])] := by
    rw [tokens_src, h2, tokensOf_text (print_plain hnum s hs 0)]
  obtain ⟨toks, last, _, h3, _, h4⟩ := parseConstraint_tokens (sys := sys) (k := k) htok
  obtain ⟨e, h5, h6⟩ := print_reading (pton := sys.inetPton6) hnum s hs 0 (by omega) toks h3
  exact ⟨src, e, .some h1 (tokenize_lexed src) (parseConstraint_iff.1 ((h4 e).2 h5)) h6 ht⟩

theorem says_of_read {pton : Str → Option Bytes} {k : ConstraintKind} {Γ : Sig} {p : Preamble} {src : ConstraintSource} {e : Expr} {s : SExpr}
    {t : Ty} (h : ReadConstraint pton k Γ p (some (src, e, s, t))) : Says k p src.str := by
  cases h with
  | some h => exact ⟨src, h, rfl⟩

section
variable {sys : Sys} {ts : List TableDecl} {as : List ActionDecl} {num : Nat → Str} (hnum : ∀ n, NumVal 10 (num n) n)

theorem bare_accepts {d : TableDecl} {ci : ConstraintInfo} (h : p4ToConstraintInfo sys ⟨d :: ts, as⟩ = .ok ci)
    (hw : NonNegProgram ⟨d :: ts, as⟩) (hb : Bare .table d.preamble) {entry : RtEntry} (hid : entry.tableId = d.preamble.id) :
    reasonEntryViolatesConstraint entry ci = .ok [] ↔ ActionsAccepted sys.inetPton6 ⟨[], as⟩ entry.action := by
  rw [reason_accepts h hw]
  constructor
  · rintro ⟨d', h1, h2, h3, h4⟩
    exact actionsAccepted_congr (by rfl) h4
  · exact fun h1 => ⟨d, by simp, hid.symm, .inl (.absent hb), actionsAccepted_congr (by rfl) h1⟩

include hnum in
theorem table_written {d : TableDecl} {ci : ConstraintInfo} (h : p4ToConstraintInfo sys ⟨d :: ts, as⟩ = .ok ci)
    (hb : Bare .table d.preamble) {vs : List VarInfo} (hk : Each KeyDecl d.matchFields vs) {s : SExpr} (hs : Writable .table s)
    (ht : HasTy (keySig vs) s .boolean) (hw : NonNegProgram ⟨d :: ts, as⟩) :
    ∃ ci', p4ToConstraintInfo sys ⟨tableWith d (toText (print num s 0)) :: ts, as⟩ = .ok ci' ∧
      (∀ entry, entry.tableId = d.preamble.id →
        (reasonEntryViolatesConstraint entry ci' = .ok [] ↔ reasonEntryViolatesConstraint entry ci = .ok [] ∧
          EntryFits vs entry ∧ ∃ ρ, EntryMeans vs entry ρ ∧ Evaluates (keySig vs) ρ s .boolean (.bool true))) ∧
      (∀ entry m, entry.tableId = d.preamble.id → entry.action = none → reasonEntryViolatesConstraint entry ci' = .ok m →
        m ≠ [] → EntryFits vs entry ∧ ∃ ρ, EntryMeans vs entry ρ ∧ Evaluates (keySig vs) ρ s .boolean (.bool false)) ∧
      ∀ entry, entry.tableId ≠ d.preamble.id →
        (reasonEntryViolatesConstraint entry ci' = .ok [] ↔ reasonEntryViolatesConstraint entry ci = .ok []) := by
  obtain ⟨src, e, hr⟩ := read_written (sys := sys) hnum hb hs ht
  obtain ⟨h1, h2, h3, h4⟩ := p4ToConstraintInfo_succeeds.1 ⟨_, h⟩
  obtain ⟨vs', _, k1, k2, _⟩ := h3 d (by simp)
  cases each_unique (R := KeyDecl) (fun _ _ _ => keyDecl_unique) hk k1
  have hw' : NonNegProgram ⟨tableWith d (toText (print num s 0)) :: ts, as⟩ :=
    ⟨List.forall_mem_cons.2 ⟨hw.1 d (by simp), fun x hx => hw.1 x (List.mem_cons_of_mem _ hx)⟩, hw.2⟩
  obtain ⟨ci', hci⟩ := p4ToConstraintInfo_succeeds (sys := sys) (p := ⟨tableWith d (toText (print num s 0)) :: ts, as⟩).2
    ⟨h1, h2, List.forall_mem_cons.2 ⟨⟨vs, _, hk, k2, hr⟩, fun x hx => h3 x (List.mem_cons_of_mem _ hx)⟩, h4⟩
  have hv := fun entry b => tableValue_iff (d := tableWith d (toText (print num s 0))) (entry := entry) hk hr b
  refine ⟨ci', hci, fun entry hid => ?_, fun entry m hid ha hm hne => ?_, fun entry hid => ?_⟩
  · rw [(verdict_here hci hw' (says_of_read hr) hid).1, hv, bare_accepts h hw hb hid]
    simp [and_comm]
  · have := (verdict_here hci hw' (says_of_read hr) hid).2.2 m ha hm hne
    rw [hv] at this
    exact this.2
  · rw [verdict_elsewhere hci hw' hid, verdict_elsewhere h hw hid]

include hnum in
theorem action_written {d : ActionDecl} {ci : ConstraintInfo} (h : p4ToConstraintInfo sys ⟨ts, d :: as⟩ = .ok ci)
    (hb : Bare .action d.preamble) {vs : List VarInfo} (hk : Each ParamIs d.params vs) {s : SExpr} (hs : Writable .action s)
    (ht : HasTy (paramSig vs) s .boolean) (hw : NonNegProgram ⟨ts, d :: as⟩) :
    ∃ ci', p4ToConstraintInfo sys ⟨ts, actionWith d (toText (print num s 0)) :: as⟩ = .ok ci' ∧
      (∀ a, a.actionId = d.preamble.id →
        (reasonAction a ci' = .ok [] ↔ ArgsFit vs a.params ∧ ∃ ρ, ActionMeans vs a ρ ∧
          Evaluates (paramSig vs) ρ s .boolean (.bool true))) ∧
      (∀ a m, a.actionId = d.preamble.id → reasonAction a ci' = .ok m → m ≠ [] →
        ArgsFit vs a.params ∧ ∃ ρ, ActionMeans vs a ρ ∧ Evaluates (paramSig vs) ρ s .boolean (.bool false)) ∧
      ∀ a, a.actionId ≠ d.preamble.id → (reasonAction a ci' = .ok [] ↔ reasonAction a ci = .ok []) := by
  obtain ⟨src, e, hr⟩ := read_written (sys := sys) hnum hb hs ht
  obtain ⟨h1, h2, h3, h4⟩ := p4ToConstraintInfo_succeeds.1 ⟨_, h⟩
  obtain ⟨vs', _, k1, k2, _⟩ := h4 d (by simp)
  cases each_unique (R := ParamIs) (fun _ _ _ => paramIs_unique) hk k1
  have hw' : NonNegProgram ⟨ts, actionWith d (toText (print num s 0)) :: as⟩ :=
    ⟨hw.1, List.forall_mem_cons.2 ⟨hw.2 d (by simp), fun x hx => hw.2 x (List.mem_cons_of_mem _ hx)⟩⟩
  obtain ⟨ci', hci⟩ := p4ToConstraintInfo_succeeds (sys := sys) (p := ⟨ts, actionWith d (toText (print num s 0)) :: as⟩).2
    ⟨h1, h2, h3, List.forall_mem_cons.2 ⟨⟨vs, _, hk, k2, hr⟩, fun x hx => h4 x (List.mem_cons_of_mem _ hx)⟩⟩
  have hv := fun a b => actionValue_iff (d := actionWith d (toText (print num s 0))) (a := a) hk hr b
  refine ⟨ci', hci, fun entry hid => ?_, fun entry m hid hm hne => ?_, fun entry hid => ?_⟩
  · rw [(actionVerdict_here hci hw' (says_of_read hr) hid).1, hv]
    simp
  · have := (actionVerdict_here hci hw' (says_of_read hr) hid).2.2 m hm hne
    rw [hv] at this
    exact this.2
  · rw [actionVerdict_elsewhere hci hw' hid, actionVerdict_elsewhere h hw hid]

end

/-! ### Constraints that say exactly what an entry says -/

/-- `n::f == c` -/
def sayField (n f : Str) (c : Int) : SExpr := .cmp .eq (.field (.key n) f) (.int c)

/-- The key has this value. -/
def sayKey (n : Str) : Value → SExpr
  | .exact v => sayField n c!"value" v
  | .ternary v m => .conn .and (sayField n c!"value" v) (sayField n c!"mask" m)
  | .lpm v p => .conn .and (sayField n c!"value" v) (sayField n c!"prefix_length" p)
  | .range l h => .conn .and (sayField n c!"low" l) (sayField n c!"high" h)
  | _ => .bool false

/-- The priority is this number. -/
def sayPriority (p : Int) : SExpr :=
  .cmp .eq (.attr c!"priority") (if 0 ≤ p then .int p else .neg (.int (-p)))

theorem join_bit (w : Int) : IsJoin (.fixedUnsigned w) .arbitraryInt (.fixedUnsigned w) := lub_iff.1 (by simp [leastUpperBound, strictlyAbove])

theorem join_int : IsJoin .arbitraryInt .arbitraryInt .arbitraryInt := lub_iff.1 (by simp [leastUpperBound])

theorem evaluates_field {Γ : Sig} {ρ : Env} {n f : Str} {t u : Ty} {w : Value} {z c : Int} (hk : Γ.key n = some t)
    (hr : ρ.key n = some w) (hf : FieldTy t f u) (hv : FieldVal w f z)
    (hu : u = .arbitraryInt ∨ ∃ W : Nat, u = .fixedUnsigned W ∧ 0 ≤ c ∧ c < 2 ^ W) :
    Evaluates Γ ρ (sayField n f c) .boolean (.bool true) ↔ z = c := by
  have : Evaluates Γ ρ (sayField n f c) .boolean (.bool (decide (z = c))) := by
    rcases hu with rfl | ⟨W, rfl, h0, h1⟩
    · exact .cmp (.field (.key hk hr) hf hv) (.int c) join_int nofun (by simp [convert, compareVals])
    · refine .cmp (.field (.key hk hr) hf hv) (.int c) (join_bit _) nofun ?_
      simp [convert, compareVals, Int.emod_eq_of_lt h0 h1]
  constructor
  · intro h
    have := (evaluates_unique h this).2
    simpa using this.symm
  · rintro rfl
    simpa using this

theorem hasTy_field {Γ : Sig} {n f : Str} {t u : Ty} {c : Int} (hk : Γ.key n = some t) (hs : Supported t) (hf : FieldTy t f u)
    (hu : u = .arbitraryInt ∨ ∃ W : Nat, u = .fixedUnsigned W) : HasTy Γ (sayField n f c) .boolean := by
  rcases hu with rfl | ⟨W, rfl⟩
  · exact .cmp (.field (.key hk hs) hf) (.int c) join_int nofun
  · exact .cmp (.field (.key hk hs) hf) (.int c) (join_bit _) nofun

theorem say_key {Γ : Sig} {ρ : Env} {n : Str} {W : Nat} {t : Ty} {v w : Value} (ht : OfWidth W t) (ht' : t ≠ .fixedUnsigned W)
    (hk : Γ.key n = some t) (hr : ρ.key n = some w) (hv : WellFormed W t v) (hw : WellFormed W t w) :
    Evaluates Γ ρ (sayKey n v) .boolean (.bool true) ↔ w = v := by
  have c := two_pow_cast W
  cases ht with
  | bit => exact (ht' rfl).elim
  | exact =>
    cases v <;> simp only [WellFormed] at hv
    cases w <;> simp only [WellFormed] at hw
    rw [sayKey, evaluates_field hk hr (.exactValue _) (.exactValue _) (.inr ⟨W, rfl, hv⟩)]
    simp
  | ternary =>
    cases v <;> simp only [WellFormed] at hv
    cases w <;> simp only [WellFormed] at hw
    rename_i v m w k
    have := Nat.and_le_right (n := v.toNat) (m := m.toNat)
    rw [sayKey, evaluates_and, evaluates_field hk hr (.ternaryValue _) (.ternaryValue _ _) (.inr ⟨W, rfl, by omega⟩),
      evaluates_field hk hr (.ternaryMask _) (.ternaryMask _ _) (.inr ⟨W, rfl, by omega⟩)]
    simp
  | optional =>
    cases v <;> simp only [WellFormed] at hv
    cases w <;> simp only [WellFormed] at hw
    have := Nat.two_pow_pos W
    rw [sayKey, evaluates_and, evaluates_field hk hr (.optionalValue _) (.ternaryValue _ _) (.inr ⟨W, rfl, by omega⟩),
      evaluates_field hk hr (.optionalMask _) (.ternaryMask _ _) (.inr ⟨W, rfl, by omega⟩)]
    simp
  | lpm =>
    cases v <;> simp only [WellFormed] at hv
    cases w <;> simp only [WellFormed] at hw
    rw [sayKey, evaluates_and, evaluates_field hk hr (.lpmValue _) (.lpmValue _ _) (.inr ⟨W, rfl, by omega⟩),
      evaluates_field hk hr (.lpmPrefix _) (.lpmPrefix _ _) (.inl rfl)]
    simp
  | range =>
    cases v <;> simp only [WellFormed] at hv
    cases w <;> simp only [WellFormed] at hw
    rw [sayKey, evaluates_and, evaluates_field hk hr (.rangeLow _) (.rangeLow _ _) (.inr ⟨W, rfl, by omega⟩),
      evaluates_field hk hr (.rangeHigh _) (.rangeHigh _ _) (.inr ⟨W, rfl, by omega⟩)]
    simp

theorem say_key_ok {Γ : Sig} {n : Str} {W : Nat} {t : Ty} {v : Value} (ht : OfWidth W t) (ht' : t ≠ .fixedUnsigned W)
    (hk : Γ.key n = some t) (hv : WellFormed W t v) (hn : ∀ p ∈ splitDots n, Ident p) :
    HasTy Γ (sayKey n v) .boolean ∧ Writable .table (sayKey n v) := by
  have hi : ∀ s ∈ [c!"value", c!"mask", c!"prefix_length", c!"low", c!"high"], Ident s := by
    intro s hs
    simp only [List.mem_cons, List.not_mem_nil, or_false] at hs
    rcases hs with rfl | rfl | rfl | rfl | rfl <;>
    exact ⟨⟨_, _, rfl, by simp [Letter], by simp [Letter, Digit]⟩, by decide, by decide⟩
  have hw : ∀ {f c}, f ∈ [c!"value", c!"mask", c!"prefix_length", c!"low", c!"high"] → 0 ≤ c → Writable .table (sayField n f c) :=
    fun hf hc => ⟨⟨⟨rfl, hn⟩, hi _ hf⟩, hc⟩
  cases ht with
  | bit => exact (ht' rfl).elim
  | exact =>
    cases v <;> simp only [WellFormed] at hv
    exact ⟨hasTy_field hk ⟨nofun, nofun⟩ (.exactValue _) (.inr ⟨_, rfl⟩), hw (by simp) (by omega)⟩
  | ternary =>
    cases v <;> simp only [WellFormed] at hv
    exact ⟨.conn (hasTy_field hk ⟨nofun, nofun⟩ (.ternaryValue _) (.inr ⟨_, rfl⟩))
      (hasTy_field hk ⟨nofun, nofun⟩ (.ternaryMask _) (.inr ⟨_, rfl⟩)), hw (by simp) (by omega), hw (by simp) (by omega)⟩
  | optional =>
    cases v <;> simp only [WellFormed] at hv
    have := Nat.two_pow_pos W
    have c := two_pow_cast W
    exact ⟨.conn (hasTy_field hk ⟨nofun, nofun⟩ (.optionalValue _) (.inr ⟨_, rfl⟩))
      (hasTy_field hk ⟨nofun, nofun⟩ (.optionalMask _) (.inr ⟨_, rfl⟩)), hw (by simp) (by omega), hw (by simp) (by omega)⟩
  | lpm =>
    cases v <;> simp only [WellFormed] at hv
    exact ⟨.conn (hasTy_field hk ⟨nofun, nofun⟩ (.lpmValue _) (.inr ⟨_, rfl⟩))
      (hasTy_field hk ⟨nofun, nofun⟩ (.lpmPrefix _) (.inl rfl)), hw (by simp) (by omega), hw (by simp) (by omega)⟩
  | range =>
    cases v <;> simp only [WellFormed] at hv
    exact ⟨.conn (hasTy_field hk ⟨nofun, nofun⟩ (.rangeLow _) (.inr ⟨_, rfl⟩))
      (hasTy_field hk ⟨nofun, nofun⟩ (.rangeHigh _) (.inr ⟨_, rfl⟩)), hw (by simp) (by omega), hw (by simp) (by omega)⟩

theorem say_priority {Γ : Sig} {ρ : Env} {p q : Int} (hr : ρ.priority = some q) :
    Evaluates Γ ρ (sayPriority p) .boolean (.bool true) ↔ q = p := by
  have : Evaluates Γ ρ (sayPriority p) .boolean (.bool (decide (q = p))) := by
    unfold sayPriority
    split
    · exact .cmp (.priority hr) (.int p) join_int nofun (by simp [convert, compareVals])
    · exact .cmp (.priority hr) (.neg (.int _)) join_int nofun (by simp [convert, compareVals])
  constructor
  · intro h
    have := (evaluates_unique h this).2
    simpa using this.symm
  · rintro rfl
    simpa using this

theorem say_priority_ok (Γ : Sig) (p : Int) : HasTy Γ (sayPriority p) .boolean ∧ Writable .table (sayPriority p) := by
  have hi : Ident c!"priority" := ⟨⟨_, _, rfl, by simp [Letter], by simp [Letter, Digit]⟩, by decide, by decide⟩
  unfold sayPriority
  split
  · rename_i h
    exact ⟨.cmp .priority (.int _) join_int nofun, hi, h⟩
  · exact ⟨.cmp .priority (.neg (.int _)) join_int nofun, hi, by show 0 ≤ -p; omega⟩

theorem hasValue {vs : List VarInfo} (hd : (vs.map VarInfo.id).Nodup) {c : RtEntry} (hc : EntryFits vs c) {kj : VarInfo}
    (hj : kj ∈ vs) : ∃ w, KeyValue c kj w := by
  by_cases hm : ∃ m ∈ c.matches_, m.fieldId = kj.id
  · obtain ⟨m, h1, h2⟩ := hm
    obtain ⟨kl, h3, h4, w, h5⟩ := hc.known m h1
    cases inj_of_nodup_map hd h3 hj (h4.trans h2)
    exact ⟨w, .inl ⟨m, h1, h2, h5⟩⟩
  · rcases hc.complete kj hj with h1 | ⟨w, h1⟩
    · exact (hm h1).elim
    · exact ⟨w, .inr ⟨fun m h2 h3 => hm ⟨m, h2, h3⟩, h1⟩⟩

section
variable {sys : Sys} {ts : List TableDecl} {as : List ActionDecl} {d : TableDecl} {ci : ConstraintInfo}
  (h : p4ToConstraintInfo sys ⟨d :: ts, as⟩ = .ok ci) (hw : NonNegProgram ⟨d :: ts, as⟩) (hb : Bare .table d.preamble)
  {vs : List VarInfo} (hk : Each KeyDecl d.matchFields vs) {a b : RtEntry} (ha : a.tableId = d.preamble.id)
  (hb' : b.tableId = d.preamble.id) (ga : reasonEntryViolatesConstraint a ci = .ok [])
  (gb : reasonEntryViolatesConstraint b ci = .ok []) (pa : EntryFits vs a) (pb : EntryFits vs b)
  (hi : Indistinguishable sys d ts as a b)

include h hw hb hk ha hb' ga gb pa pb hi in
/-- Constraints have the same value for indistinguishable entries. -/
theorem indistinguishable_holds {s : SExpr} (hs : Writable .table s) (ht : HasTy (keySig vs) s .boolean) :
    (∃ ρ, EntryMeans vs a ρ ∧ Evaluates (keySig vs) ρ s .boolean (.bool true)) ↔
    ∃ ρ, EntryMeans vs b ρ ∧ Evaluates (keySig vs) ρ s .boolean (.bool true) := by
  obtain ⟨ci', h1, h2, _⟩ := table_written (num := natDec) natDec_val h hb hk hs ht hw
  have h3 := hi _ _ h1
  rw [h2 a ha, h2 b hb'] at h3
  simpa [ga, gb, pa, pb] using h3

include h in
theorem entryMeans_exists {vs : List VarInfo} (hk : Each KeyDecl d.matchFields vs) {entry : RtEntry} (hf : EntryFits vs entry) :
    ∃ ρ, EntryMeans vs entry ρ := by
  obtain ⟨ti, _, hp⟩ := table_declared h (d := d) (by simp)
  obtain ⟨vs', g1, _, g3, _⟩ := parseTableInfo_parts hp
  cases each_unique (R := KeyDecl) (fun _ _ _ => keyDecl_unique) hk g1
  have hwf := parseTableInfo_wf hp
  obtain ⟨ctx, hc⟩ := (parseTableEntry_iff hwf entry).2 ((entryOk_fits g3).2 hf)
  exact ⟨_, (entryEnv_means g3).1 (parseTableEntry_env hwf hc).1⟩

theorem keySig_of_mem {vs : List VarInfo} (hd : Distinct vs) {ki : VarInfo} (h : ki ∈ vs) : (keySig vs).key ki.name = some ki.ty := by
  simp only [keySig]
  cases hx : vs.find? (fun v => decide (v.name = ki.name)) with
  | none => exact absurd (List.find?_eq_none.1 hx ki h) (by simp)
  | some kl =>
    have h1 := List.find?_some hx
    have h2 := List.mem_of_find?_eq_some hx
    rw [inj_of_nodup_map hd.2 h2 h (by simpa using h1)]
    rfl

theorem keyDecl_name {f : MatchField} {v : VarInfo} (h : KeyDecl f v) : v.name = f.name ∧ ∀ w, v.ty ≠ .fixedUnsigned w := by
  cases h <;> exact ⟨rfl, nofun⟩

include h hw hb hk ha hb' ga gb hi in
theorem indistinguishable_same (hn : Nameable d) (pa : Proper vs a) (pb : Proper vs b) : SamePackets d a b := by
  have holds := fun s => @indistinguishable_holds sys ts as d ci h hw hb vs hk a b ha hb' ga gb pa.fits pb.fits hi s
  obtain ⟨ρ, hρ⟩ := entryMeans_exists h hk pa.fits
  obtain ⟨σ, hσ⟩ := entryMeans_exists h hk pb.fits
  obtain ⟨vs', _, k1, k2, _⟩ := goodTable_of h
  cases each_unique (R := KeyDecl) (fun _ _ _ => keyDecl_unique) hk k1
  have value : ∀ ki ∈ vs, ∃ v, KeyValue a ki v ∧ KeyValue b ki v := by
    intro ki hki
    obtain ⟨v, hv⟩ := hasValue k2.1 pa.fits hki
    obtain ⟨w, hw'⟩ := hasValue k2.1 pb.fits hki
    obtain ⟨W, h1, h2⟩ := pa.values ki hki v hv
    obtain ⟨W', h3, h4⟩ := pb.values ki hki w hw'
    cases ofWidth_unique h1 h3
    obtain ⟨f, hf, hfk⟩ := each_mem hk ki hki
    obtain ⟨hname, hne⟩ := keyDecl_name hfk
    have hsig := keySig_of_mem k2 hki
    obtain ⟨t1, t2⟩ := say_key_ok h1 (hne _) hsig h2 (hname ▸ hn f hf)
    have hρk : ρ.key ki.name = some v := (hρ.key _ _).2 ⟨ki, hki, rfl, hv⟩
    have hσk : σ.key ki.name = some w := (hσ.key _ _).2 ⟨ki, hki, rfl, hw'⟩
    obtain ⟨τ, hτ, hτe⟩ := (holds _ t2 t1).1 ⟨ρ, hρ, (say_key h1 (hne _) hsig hρk h2 h2).2 rfl⟩
    cases entryMeans_unique hσ hτ
    cases (say_key h1 (hne _) hsig hσk h2 h4).1 hτe
    exact ⟨_, hv, hw'⟩
  have same : ∀ ki ∈ vs, ∀ v, KeyValue a ki v ↔ KeyValue b ki v := by
    intro ki hki v
    obtain ⟨w, h1, h2⟩ := value ki hki
    constructor
    · intro h3; cases keyValue_once pa.fits.once h1 h3; exact h2
    · intro h3; cases keyValue_once pb.fits.once h2 h3; exact h1
  refine ⟨⟨ha, hb'⟩, ?_, vs, hk, pa, pb, fun x => ?_⟩
  · obtain ⟨t1, t2⟩ := say_priority_ok (keySig vs) a.priority
    obtain ⟨τ, hτ, hτe⟩ := (holds _ t2 t1).1 ⟨ρ, hρ, (say_priority hρ.priority).2 rfl⟩
    exact ((say_priority hτ.priority).1 hτe).symm
  · exact forall_congr' fun ki => forall_congr' fun hki => exists_congr fun W => exists_congr fun v => by rw [same ki hki v]

include hw hb ga gb h in
theorem same_indistinguishable (hs : SamePackets d a b) : Indistinguishable sys d ts as a b := by
  intro text ci' h'
  have acts : ∀ {e : RtEntry}, e.tableId = d.preamble.id → reasonEntryViolatesConstraint e ci = .ok [] →
      (reasonEntryViolatesConstraint e ci' = .ok [] ↔
        Attached .table (tableWith d text).preamble none ∨ TableValue sys.inetPton6 (tableWith d text) e true) := by
    intro e hid hg
    have hw' : NonNegProgram ⟨tableWith d text :: ts, as⟩ :=
      ⟨List.forall_mem_cons.2 ⟨hw.1 d (by simp), fun x hx => hw.1 x (List.mem_cons_of_mem _ hx)⟩, hw.2⟩
    rw [bare_accepts h hw hb hid] at hg
    rw [reason_accepts h' hw']
    constructor
    · rintro ⟨d', h1, h2, h3, _⟩
      have hnd := (p4ToConstraintInfo_succeeds.1 ⟨ci', h'⟩).1
      rcases List.mem_cons.1 h1 with rfl | h1
      · exact h3
      · exfalso
        simp only [List.map_cons, List.nodup_cons, List.mem_map, not_exists, not_and] at hnd
        exact hnd.1 d' h1 (h2.trans hid)
    · exact fun h1 => ⟨tableWith d text, by simp, hid.symm, h1, actionsAccepted_congr (by rfl) hg⟩
  obtain ⟨ti, _, hp⟩ := table_declared h' (d := tableWith d text) (by simp)
  rw [acts hs.table.1 ga, acts hs.table.2 gb, ← tableReason_accepts hp (hw.1 d (by simp)),
    ← tableReason_accepts hp (hw.1 d (by simp)), tableReason_packets hp (a := a) (b := b) ⟨hs.table, hs.priority, hs.packets⟩]

end

end P4C
