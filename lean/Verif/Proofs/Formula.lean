import Verif.Spec.Formula
import Verif.Proofs.Constant
import Verif.Proofs.Evolve

/-!
# Constraints as formulas of arithmetic
-/

namespace P4C

open Spec

/-- The types of numbers. -/
def numberTy : Option Int → Ty
  | none => .arbitraryInt
  | some w => .fixedUnsigned w

theorem join_numbers {a b : Option Int} {t : Ty} (h : IsJoin (numberTy a) (numberTy b) t) (m : Int) :
    (∀ n, t ≠ .exact n) ∧ convert (numberTy a) t (.int m) = .int (reduced a b m) := by
  rw [← lub_iff] at h
  cases a <;> cases b <;> simp only [numberTy, leastUpperBound, strictlyAbove] at h
  · cases h; simp [convert, numberTy, reduced]
  · cases h; simp [convert, numberTy, reduced]
  · cases h; simp [convert, numberTy, reduced]
  · simp only [Bool.false_eq_true, if_false, Option.ite_none_right_eq_some, Option.some.injEq] at h
    obtain ⟨_, rfl⟩ := h
    simp [convert, numberTy, reduced]

section
variable {Γ : Sig} {ρ : Env} {vars : SExpr → Prop} {at_ : SExpr → Option Int → Int → Prop} {atoms : SExpr → Prop → Prop}

theorem numberIn_value (sound : ∀ {e w z}, at_ e w z → Evaluates Γ ρ e (numberTy w) (.int z)) {e : SExpr} {w : Option Int} {z : Int}
    (h : NumberIn at_ e w z) : Evaluates Γ ρ e (numberTy w) (.int z) := by
  induction h with
  | int c => exact .int c
  | given h => exact sound h
  | neg _ ih => exact .neg ih

theorem numberTy_inj {a b : Option Int} (h : numberTy a = numberTy b) : a = b := by
  cases a <;> cases b <;> simp_all [numberTy]

theorem numberIn_unique (sound : ∀ {e w z}, at_ e w z → Evaluates Γ ρ e (numberTy w) (.int z)) {e : SExpr} {a b : Option Int}
    {m n : Int} (h : NumberIn at_ e a m) (h' : NumberIn at_ e b n) : a = b ∧ m = n := by
  have := evaluates_unique (numberIn_value sound h) (numberIn_value sound h')
  exact ⟨numberTy_inj this.1, by simpa using this.2⟩

/-- Operands of constraints that are well-typed are numbers. -/
theorem numberIn_exists
    (total : ∀ {e t}, vars e → HasTy Γ e t → ∃ w z, at_ e w z ∧ numberTy w = t)
    {e : SExpr} (h : IsNumber vars e) {t : Ty} (ht : HasTy Γ e t) : ∃ w z, NumberIn at_ e w z ∧ numberTy w = t := by
  induction h generalizing t with
  | int c => cases ht; exact ⟨none, c, .int c, rfl⟩
  | neg _ ih =>
    cases ht with
    | neg ht =>
      obtain ⟨w, z, h1, h2⟩ := ih ht
      cases w with
      | none => exact ⟨none, -z, .neg h1, rfl⟩
      | some w => cases h2
  | var h =>
    obtain ⟨w, z, h1, h2⟩ := total h ht
    exact ⟨w, z, .given h1, h2⟩

theorem compare_numbers {o : Cmp} {a b : Int} : ∃ c, compareVals o (.int a) (.int b) = some c ∧ (c = true ↔ o.ofInts a b) := by
  cases o <;> simp [compareVals, orderKey, Cmp.ofInts, Decidable.em]

theorem formula_ty (isBool : ∀ {e P t}, atoms e P → HasTy Γ e t → t = .boolean) {s : SExpr} {P : Prop} (h : Formula vars at_ atoms s P)
    {t : Ty} (ht : HasTy Γ s t) : t = .boolean := by
  cases h with
  | atom h => exact isBool h ht
  | _ => cases ht; rfl

theorem formula_value (sound : ∀ {e w z}, at_ e w z → Evaluates Γ ρ e (numberTy w) (.int z))
    (total : ∀ {e t}, vars e → HasTy Γ e t → ∃ w z, at_ e w z ∧ numberTy w = t)
    (atom : ∀ {e P}, atoms e P → HasTy Γ e .boolean → ∃ b, Evaluates Γ ρ e .boolean (.bool b) ∧ (b = true ↔ P))
    (isBool : ∀ {e P t}, atoms e P → HasTy Γ e t → t = .boolean)
    {s : SExpr} {P : Prop} (h : Formula vars at_ atoms s P) (ht : HasTy Γ s .boolean) :
    ∃ b, Evaluates Γ ρ s .boolean (.bool b) ∧ (b = true ↔ P) := by
  have connected : ∀ {o : Spec.Conn} {l r : SExpr} {a b : Bool}, Evaluates Γ ρ l .boolean (.bool a) → Evaluates Γ ρ r .boolean (.bool b) →
      Evaluates Γ ρ (.conn o l r) .boolean (.bool (o.apply a b)) := fun h1 h2 => .conn h1 h2
  induction h with
  | true_ => exact ⟨true, .bool true, by simp⟩
  | false_ => exact ⟨false, .bool false, by simp⟩
  | not _ ih =>
    cases ht with
    | not ht =>
      obtain ⟨b, h1, h2⟩ := ih ht
      exact ⟨!b, .not h1, by rw [← h2]; simp⟩
  | and _ _ ih1 ih2 =>
    cases ht with
    | conn t1 t2 =>
      obtain ⟨a, h1, h2⟩ := ih1 t1
      obtain ⟨b, h3, h4⟩ := ih2 t2
      exact ⟨_, connected h1 h3, by rw [← h2, ← h4]; simp [Spec.Conn.apply]⟩
  | or _ _ ih1 ih2 =>
    cases ht with
    | conn t1 t2 =>
      obtain ⟨a, h1, h2⟩ := ih1 t1
      obtain ⟨b, h3, h4⟩ := ih2 t2
      exact ⟨_, connected h1 h3, by rw [← h2, ← h4]; simp [Spec.Conn.apply]⟩
  | implies _ _ ih1 ih2 =>
    cases ht with
    | conn t1 t2 =>
      obtain ⟨a, h1, h2⟩ := ih1 t1
      obtain ⟨b, h3, h4⟩ := ih2 t2
      exact ⟨_, connected h1 h3, by rw [← h2, ← h4]; cases a <;> simp [Spec.Conn.apply]⟩
  | @iff l r P Q f1 f2 ih1 ih2 =>
    cases ht with
    | cmp t1 t2 hj _ =>
      cases formula_ty isBool f1 t1
      cases formula_ty isBool f2 t2
      obtain ⟨a, h1, h2⟩ := ih1 t1
      obtain ⟨b, h3, h4⟩ := ih2 t2
      cases casts_boolean hj.1
      refine ⟨decide (Value.bool a = .bool b), .cmp h1 h3 hj (by nofun) (by simp only [convert, compareVals, if_true]), ?_⟩
      rw [← h2, ← h4]
      cases a <;> cases b <;> simp
  | @ne l r P f ih =>
    cases ht with
    | cmp t1 t2 hj _ =>
      obtain ⟨b, h1, h2⟩ := ih (.cmp t1 t2 hj (by nofun))
      refine ⟨!b, ?_, by rw [← h2]; simp⟩
      generalize hv : Value.bool b = v at h1
      cases h1 with
      | cmp h3 h4 h5 _ h6 =>
        cases hv
        refine .cmp h3 h4 h5 (by nofun) ?_
        simp only [compareVals, Option.some.injEq] at h6 ⊢
        simp [← h6]
  | @compare o x y hx hy =>
    cases ht with
    | cmp t1 t2 hj _ =>
      obtain ⟨a, m, h1, rfl⟩ := numberIn_exists total hx t1
      obtain ⟨b, n, h2, rfl⟩ := numberIn_exists total hy t2
      have hj' : IsJoin (numberTy b) (numberTy a) _ := ⟨hj.2.1, hj.1, fun u g1 g2 => hj.2.2 u g2 g1⟩
      obtain ⟨c, hc1, hc2⟩ := compare_numbers (o := o) (a := reduced a b m) (b := reduced b a n)
      refine ⟨c, .cmp (numberIn_value sound h1) (numberIn_value sound h2) hj (fun _ => (join_numbers hj m).1) ?_, ?_⟩
      · rw [(join_numbers hj m).2, (join_numbers hj' n).2, hc1]
      · rw [hc2]
        constructor
        · exact fun ho => ⟨a, m, b, n, h1, h2, ho⟩
        · rintro ⟨a', m', b', n', h1', h2', ho⟩
          obtain ⟨rfl, rfl⟩ := numberIn_unique sound h1 h1'
          obtain ⟨rfl, rfl⟩ := numberIn_unique sound h2 h2'
          exact ho
  | atom h => exact atom h ht

end

/-! ### Tables -/

section
variable {sys : Sys} {p : P4Info} {ci : ConstraintInfo} (h : p4ToConstraintInfo sys p = .ok ci) (hw : NonNegProgram p)
  {d : TableDecl} (hd : d ∈ p.tables) {vs : List VarInfo} (hv : Each KeyDecl d.matchFields vs) {entry : RtEntry}
  (hfit : EntryFits vs entry)

theorem fieldTy_number {f : MatchField} {ki : VarInfo} (hk : KeyDecl f ki) {g : Str} {t : Ty} (ht : FieldTy ki.ty g t) :
    (g ≠ c!"prefix_length" ∧ t = numberTy (some f.bitwidth)) ∨ (g = c!"prefix_length" ∧ t = numberTy none) := by
  cases hk <;> cases ht <;> first | exact .inl ⟨by decide, rfl⟩ | exact .inr ⟨rfl, rfl⟩

include h hd hv hfit in
theorem entryNumber_value {ρ : Env} (hρ : EntryMeans vs entry ρ) {e : SExpr} {w : Option Int} {z : Int}
    (hn : EntryNumber d.matchFields entry e w z) : Evaluates (keySig vs) ρ e (numberTy w) (.int z) := by
  have hdist := declared_distinct h hd hv
  have key : ∀ {f : MatchField} {g : Str} {z : Int}, f ∈ d.matchFields → FieldNumber f g entry z → ∃ t,
      Evaluates (keySig vs) ρ (.field (.key f.name) g) t (.int z) ∧
      ((g ≠ c!"prefix_length" ∧ t = numberTy (some f.bitwidth)) ∨ (g = c!"prefix_length" ∧ t = numberTy none)) := by
    intro f g z hf hz
    obtain ⟨ki, hki, hfk⟩ := each_mem_left hv f hf
    have hname := (keyDecl_name hfk).1
    have hsig := keySig_of_mem hdist hki
    obtain ⟨v, hval⟩ := hasValue hdist.1 hfit hki
    have hρv : ρ.key ki.name = some v := (hρ.key _ _).2 ⟨ki, hki, rfl, hval⟩
    rw [← fieldNumber_iff hfk hval hfit.once] at hz
    obtain ⟨t, ht⟩ : ∃ t, FieldTy ki.ty g t := by
      rcases hval with ⟨⟨_, mv⟩, _, _, h2⟩ | ⟨_, h2⟩ <;> cases hfk <;> cases h2 <;> cases hz <;> exact ⟨_, by constructor⟩
    exact ⟨t, hname ▸ .field (.key hsig hρv) ht hz, fieldTy_number hfk ht⟩
  cases hn with
  | priority => exact .priority hρ.priority
  | field hf hg hz =>
    obtain ⟨t, h1, h2 | h2⟩ := key hf hz
    · exact h2.2 ▸ h1
    · exact absurd h2.1 hg
  | prefixLength hf hz =>
    obtain ⟨t, h1, h2 | h2⟩ := key hf hz
    · exact absurd rfl h2.1
    · exact h2.2 ▸ h1

include h hd hv hfit in
theorem entryNumber_exists {e : SExpr} {t : Ty} (hn : EntryVar e)
    (ht : HasTy (keySig vs) e t) : ∃ w z, EntryNumber d.matchFields entry e w z ∧ numberTy w = t := by
  have hdist := declared_distinct h hd hv
  cases hn with
  | attr => cases ht; exact ⟨none, _, .priority, rfl⟩
  | field k g =>
    cases ht with
    | field h1 h2 =>
      cases h1 with
      | key h3 _ =>
        obtain ⟨ki, hki, rfl, rfl⟩ := keySig_mem_ty h3
        obtain ⟨f, hf, hfk⟩ := each_mem hv ki hki
        obtain ⟨z, hz⟩ := fieldNumber_exists hdist hv hfit hf (hasField_of hfk h2)
        have hz := (hz z).2 rfl
        rw [(keyDecl_name hfk).1]
        rcases fieldTy_number hfk h2 with ⟨h4, rfl⟩ | ⟨rfl, rfl⟩
        · exact ⟨_, z, .field hf h4 hz, rfl⟩
        · exact ⟨_, z, .prefixLength hf hz, rfl⟩

theorem isJoin_comm {a b t : Ty} (h : IsJoin a b t) : IsJoin b a t := ⟨h.2.1, h.1, fun u g1 g2 => h.2.2 u g2 g1⟩

theorem join_keyTy {f : MatchField} {ki : VarInfo} (hk : KeyDecl f ki) (hs : Supported ki.ty) {w : Option Int} {t : Ty}
    (hj : IsJoin ki.ty (numberTy w) t) : t = ki.ty ∧
      ∀ z, convert (numberTy w) ki.ty (.int z) = exactMatch ki.ty (reduced w (some f.bitwidth) z) := by
  rw [← lub_iff] at hj
  cases hk <;> first | exact absurd rfl (hs.2 _) | skip
  all_goals cases w <;> simp [numberTy, leastUpperBound, strictlyAbove] at hj
  all_goals first
    | (obtain ⟨_, rfl⟩ := hj; exact ⟨rfl, fun z => by simp [convert, exactMatch, reduced, numberTy]⟩)
    | (obtain rfl := hj; exact ⟨rfl, fun z => by simp [convert, exactMatch, reduced, numberTy]⟩)

/-- Which values are those of a number. -/
theorem keyValue_number {f : MatchField} {ki : VarInfo} (hk : KeyDecl f ki) (hpos : 0 ≤ f.bitwidth)
    {v : Value} (hv : KeyValue entry ki v) (hf : (entry.matches_.map FieldMatch.fieldId).Nodup) (n : Int) :
    v = exactMatch ki.ty n ↔ OnlyOn f entry n := by
  have hid : ki.id = f.id := by cases hk <;> rfl
  rcases hv with ⟨⟨i, mv⟩, hm, h1, h2⟩ | ⟨h1, h2⟩
  · have : v = exactMatch ki.ty n ↔ MatchesOnly f mv n := by
      cases hk <;> cases h2 <;>
        simp only [exactMatch, Value.exact.injEq, Value.ternary.injEq, Value.lpm.injEq, Value.range.injEq]
      · exact ⟨.exact, fun h => by cases h; assumption⟩
      · exact ⟨fun h => .ternary h.1 h.2, fun h => by cases h; exact ⟨by assumption, by assumption⟩⟩
      · exact ⟨fun g => by obtain ⟨g1, g2⟩ := g; cases g2; exact .lpm g1, fun g => by cases g; exact ⟨by assumption, rfl⟩⟩
      · exact ⟨fun h => .range h.1 h.2, fun h => by cases h; exact ⟨by assumption, by assumption⟩⟩
      · exact ⟨fun h => .optional h.1, fun h => by cases h; exact ⟨by assumption, by simp⟩⟩
    rw [this]
    constructor
    · exact fun h3 => .inl ⟨_, hm, h1.trans hid, h3⟩
    · rintro (⟨m', hm', h3, h4⟩ | ⟨_, _, _, h3⟩)
      · cases inj_of_nodup_map hf hm hm' (h1.trans (hid.trans h3.symm))
        exact h4
      · exact absurd (h1.trans hid) (h3 _ hm)
  · constructor
    · intro h3
      have : f.bitwidth = 0 ∧ n = 0 ∧ f.kind ≠ .matchType .exact := by
        rcases Int.lt_or_eq_of_le hpos with hp | hp
        · have hmask := mask_pos hp
          cases hk <;> cases h2 <;>
            simp only [exactMatch, Value.ternary.injEq, Value.lpm.injEq, Value.range.injEq, Int.toNat_natCast] at h3 hmask hp <;>
            omega
        · refine ⟨hp.symm, ?_⟩
          cases hk <;> cases h2 <;>
            simp only [exactMatch, Value.ternary.injEq, Value.lpm.injEq, Value.range.injEq] at h3 <;>
            exact ⟨by omega, by nofun⟩
      exact .inr ⟨this.1, this.2.1, this.2.2, fun m' hm' h4 => h1 m' hm' (h4.trans hid.symm)⟩
    · rintro (⟨m', hm', h3, _⟩ | ⟨h3, rfl, _⟩)
      · exact absurd (h3.trans hid.symm) (h1 m' hm')
      · cases hk <;> dsimp only at h3 <;> cases h2 <;> (try subst h3) <;> simp_all [exactMatch]

theorem compare_eq {a b : Value} : compareVals .eq a b = some (decide (a = b)) := rfl

theorem convert_self {t : Ty} {v : Value} : convert t t v = v := by simp [convert]

/-- Values of a type are determined by their fields. -/
theorem fields_determine {t : Ty} {v v' : Value} {f : MatchField} {ki ki' : VarInfo} (hk : KeyDecl f ki)
    (ht : ki.ty = t) (ht' : ki'.ty = t) (hv : KeyValue entry ki v) (hv' : KeyValue entry ki' v') :
    v = v' ↔ ∀ g z, FieldVal v g z ↔ FieldVal v' g z := by
  constructor
  · rintro rfl; simp
  intro h
  have shape : ∀ {ki : VarInfo} {v : Value}, KeyValue entry ki v → HasShape ki.ty v := by
    rintro ⟨i, n, t⟩ v (⟨⟨_, mv⟩, _, _, h2⟩ | ⟨_, h2⟩) <;> cases h2 <;> constructor
  have s1 := shape hv
  have s2 := shape hv'
  rw [ht] at s1
  rw [ht'] at s2
  cases s1 <;> cases s2
  · cases hk <;> cases ht
  · cases hk <;> cases ht
  · cases hk <;> cases ht
  · cases (h _ _).1 (.exactValue _); rfl
  · cases (h _ _).1 (.ternaryValue _ _); cases (h _ _).1 (.ternaryMask _ _); rfl
  · cases (h _ _).1 (.ternaryValue _ _); cases (h _ _).1 (.ternaryMask _ _); rfl
  · cases (h _ _).1 (.lpmValue _ _); cases (h _ _).1 (.lpmPrefix _ _); rfl
  · cases (h _ _).1 (.rangeLow _ _); cases (h _ _).1 (.rangeHigh _ _); rfl

include h hd hv hfit in
theorem keyIs_value {ρ : Env} (hρ : EntryMeans vs entry ρ) {e : SExpr} {P : Prop} (ha : KeyIs d.matchFields entry e P)
    (ht : HasTy (keySig vs) e .boolean) : ∃ b, Evaluates (keySig vs) ρ e .boolean (.bool b) ∧ (b = true ↔ P) := by
  have hdist := declared_distinct h hd hv
  have key : ∀ {f : MatchField} {t : Ty}, f ∈ d.matchFields → HasTy (keySig vs) (.key f.name) t → ∃ ki v,
      Evaluates (keySig vs) ρ (.key f.name) ki.ty v ∧ KeyDecl f ki ∧ KeyValue entry ki v ∧ Supported ki.ty ∧ t = ki.ty := by
    intro f t hf ht
    obtain ⟨ki, hki, hfk⟩ := each_mem_left hv f hf
    have hname := (keyDecl_name hfk).1
    have hsig := keySig_of_mem hdist hki
    obtain ⟨v, hval⟩ := hasValue hdist.1 hfit hki
    have hρv : ρ.key ki.name = some v := (hρ.key _ _).2 ⟨ki, hki, rfl, hval⟩
    rw [hname] at hsig hρv
    cases ht with
    | key h2 h3 =>
      rw [hsig] at h2
      cases h2
      exact ⟨ki, v, .key hsig hρv, hfk, hval, h3, rfl⟩
  have number := fun {x : SExpr} {t : Ty} => numberIn_exists (at_ := EntryNumber d.matchFields entry)
    (entryNumber_exists h hd hv hfit) (e := x) (t := t)
  have sound := fun {e w z} => entryNumber_value h hd hv hfit hρ (e := e) (w := w) (z := z)
  have only : ∀ {f : MatchField} {ki : VarInfo} {v : Value} {x : SExpr} {w : Option Int} {z : Int}, KeyDecl f ki → 0 ≤ f.bitwidth →
      KeyValue entry ki v → NumberIn (EntryNumber d.matchFields entry) x w z →
      (v = exactMatch ki.ty (reduced w (some f.bitwidth) z) ↔ OnlyNumber d.matchFields f entry x) := by
    intro f ki v x w z hk hpos hval hn
    rw [keyValue_number hk hpos hval hfit.once]
    constructor
    · exact fun h1 => ⟨w, z, hn, h1⟩
    · rintro ⟨w', z', hn', h1⟩
      obtain ⟨rfl, rfl⟩ := numberIn_unique sound hn hn'
      exact h1
  cases ha with
  | @left f x hf hpos hx =>
    cases ht with
    | cmp t1 t2 hj _ =>
      obtain ⟨ki, v, h1, h2, h3, h4, rfl⟩ := key hf t1
      obtain ⟨w, z, h5, rfl⟩ := number hx t2
      obtain ⟨rfl, hc⟩ := join_keyTy h2 h4 hj
      refine ⟨_, .cmp h1 (numberIn_value sound h5) hj (by nofun) compare_eq, ?_⟩
      rw [decide_eq_true_iff, convert_self, hc, only h2 hpos h3 h5]
  | @right f x hf hpos hx =>
    cases ht with
    | cmp t1 t2 hj _ =>
      obtain ⟨ki, v, h1, h2, h3, h4, rfl⟩ := key hf t2
      obtain ⟨w, z, h5, rfl⟩ := number hx t1
      obtain ⟨rfl, hc⟩ := join_keyTy h2 h4 (isJoin_comm hj)
      refine ⟨_, .cmp (numberIn_value sound h5) h1 hj (by nofun) compare_eq, ?_⟩
      rw [decide_eq_true_iff, convert_self, hc, eq_comm, only h2 hpos h3 h5]
  | @same f f' hf hf' =>
    cases ht with
    | cmp t1 t2 hj _ =>
      obtain ⟨ki, v, h1, h2, h3, h4, rfl⟩ := key hf t1
      obtain ⟨ki', v', h1', h2', h3', h4', rfl⟩ := key hf' t2
      have hty : ki'.ty = ki.ty := by
        rw [← lub_iff] at hj
        cases h2 <;> cases h2' <;> first | exact absurd rfl (h4.2 _) | exact absurd rfl (h4'.2 _) | skip
        all_goals simp [leastUpperBound, strictlyAbove] at hj
        all_goals simp [hj.1]
      have hj' := hj
      rw [hty] at hj'
      cases isJoin_unique hj' (⟨.refl _, .refl _, fun _ h _ => h⟩ : IsJoin ki.ty ki.ty ki.ty)
      refine ⟨_, .cmp h1 h1' hj (by nofun) compare_eq, ?_⟩
      rw [decide_eq_true_iff, convert_self, hty, convert_self, fields_determine h2 rfl hty h3 h3']
      simp only [fieldNumber_iff h2 h3 hfit.once, fieldNumber_iff h2' h3' hfit.once]

include h hw hd hv hfit in
theorem formula_reason (hid : entry.tableId = d.preamble.id) (ha : entry.action = none) {s : SExpr}
    (hs : TableSays sys.inetPton6 d s) {P : Prop} (hf : EntryFormula d.matchFields entry s P) :
    reasonEntryViolatesConstraint entry ci = .ok [] ↔ P := by
  obtain ⟨ρ, hρ⟩ := means_exists h hd hv hfit
  obtain ⟨b, h1, h2⟩ := formula_value (entryNumber_value h hd hv hfit hρ) (entryNumber_exists h hd hv hfit)
    (keyIs_value h hd hv hfit hρ) (fun ha ht => by cases ha <;> cases ht <;> rfl) hf (says_typed hv hs)
  rw [reason_value h hw hd hv hfit hid ha hs hρ, ← h2]
  constructor
  · intro h3
    simpa using (evaluates_unique h1 h3).2
  · rintro rfl
    exact h1

end

/-! ### Actions -/

section
variable {sys : Sys} {p : P4Info} {ci : ConstraintInfo} (h : p4ToConstraintInfo sys p = .ok ci) (hw : NonNegProgram p)
  {d : ActionDecl} (hd : d ∈ p.actions) {vs : List VarInfo} (hv : Each ParamIs d.params vs) {a : RtAction}
  (hfit : ActionFits vs a)

include h hd hv in
theorem args_distinct : Distinct vs := by
  obtain ⟨_, _, _, hgood⟩ := p4ToConstraintInfo_succeeds.1 ⟨ci, h⟩
  obtain ⟨vs', r, hv', hdist, _⟩ := hgood d hd
  cases each_unique (R := ParamIs) (fun _ _ _ => paramIs_unique) hv hv'
  exact hdist

include h hd hv in
theorem argNumber_value {ρ : Env} (hρ : ActionMeans vs a ρ) {e : SExpr} {w : Option Int} {z : Int}
    (hn : ArgNumber d.params a e w z) : Evaluates (paramSig vs) ρ e (numberTy w) (.int z) := by
  have hdist := args_distinct h hd hv
  cases hn with
  | @param f v hf hty hm =>
    obtain ⟨pi, hpi, hfp⟩ := each_mem_left hv f hf
    have hsig := paramSig_of_mem hdist hpi
    cases hfp with
    | bits id n w => exact .param hsig ((hρ.param _ _).2 ⟨_, v, hpi, rfl, hm, rfl⟩)
    | named => exact absurd hty (by assumption)

include hv hfit in
theorem argNumber_exists {e : SExpr} {t : Ty} (hn : ArgVar e)
    (ht : HasTy (paramSig vs) e t) : ∃ w z, ArgNumber d.params a e w z ∧ numberTy w = t := by
  cases hn with
  | param n =>
    cases ht with
    | param h3 hsup =>
      obtain ⟨pi, hpi, rfl, rfl⟩ := keySig_mem_ty (vs := vs) h3
      obtain ⟨f, hf, hfp⟩ := each_mem hv pi hpi
      obtain ⟨v, hm⟩ := hfit.complete pi hpi
      cases hfp with
      | bits id n w => exact ⟨some w, _, .param hf rfl hm, rfl⟩
      | named => exact absurd rfl (hsup.2 _)

include h hd hv hfit in
/-- Whether an invocation is accepted. -/
theorem formula_action (hid : a.actionId = d.preamble.id) {s : SExpr} (hs : ActionSays sys.inetPton6 d s) {P : Prop}
    (hf : ActionFormula d.params a s P) : ActionAccepted sys.inetPton6 p a ↔ P := by
  obtain ⟨vs', src, e, hv', hr⟩ := hs
  cases each_unique (R := ParamIs) (fun _ _ _ => paramIs_unique) hv hv'
  have hargs : ArgsFit vs a.params := ⟨hfit.known, hfit.once⟩
  obtain ⟨ρ, hρ⟩ := actionMeans_some (args_distinct h hd hv) hargs
  have ht : HasTy (paramSig vs) s .boolean := by
    cases hr with
    | some _ _ _ _ h9 => exact h9
  obtain ⟨b, h1, h2⟩ := formula_value (argNumber_value h hd hv hρ) (argNumber_exists hv hfit) nofun nofun hf ht
  obtain ⟨_, hnd, _⟩ := p4ToConstraintInfo_succeeds.1 ⟨ci, h⟩
  rw [← h2]
  constructor
  · rintro ⟨d', hd', hid', hx⟩
    cases inj_of_nodup_map hnd hd hd' (by rw [hid', hid])
    rcases hx with hx | hx
    · cases hr with
      | some h5 => cases attached_unique hx h5
    · obtain ⟨_, _, ρ', hρ', hev⟩ := (actionValue_iff hv hr true).1 hx
      rw [← actionMeans_unique hρ hρ'] at hev
      simpa using (evaluates_unique h1 hev).2
  · rintro rfl
    exact ⟨d, hd, hid.symm, .inr ((actionValue_iff hv hr true).2 ⟨rfl, hargs, ρ, hρ, h1⟩)⟩

end

/-! ### Every constraint is a formula -/

/-- What the operands of comparisons are. -/
inductive Operand (fs : List MatchField) : SExpr → Ty → Prop where
  | bool (x : SExpr) : Operand fs x .boolean
  | number {x : SExpr} (w : Option Int) : IsNumber EntryVar x → Operand fs x (numberTy w)
  | key {f : MatchField} {ki : VarInfo} : f ∈ fs → KeyDecl f ki → Supported ki.ty → Operand fs (.key f.name) ki.ty

theorem operand_of {fs : List MatchField} {vs : List VarInfo} (hv : Each KeyDecl fs vs) {x : SExpr} {t : Ty}
    (h : HasTy (keySig vs) x t) : Operand fs x t := by
  induction h with
  | bool | not | conn | cmp => exact .bool _
  | int z => exact .number none (.int z)
  | priority => exact .number none (.var (.attr _))
  | param h => cases h
  | key h hs =>
    obtain ⟨ki, hki, rfl, rfl⟩ := keySig_mem_ty h
    obtain ⟨f, hf, hfk⟩ := each_mem hv ki hki
    rw [(keyDecl_name hfk).1]
    exact .key hf hfk hs
  | @neg e h ih =>
    generalize ha : Ty.arbitraryInt = a at ih
    cases ih with
    | bool => cases ha
    | number w h => exact .number w (.neg h)
    | key _ hk _ => cases hk <;> cases ha
  | field _ h2 ih =>
    cases ih with
    | bool => cases h2
    | number w _ => cases w <;> cases h2
    | key hf hk _ =>
      rcases fieldTy_number hk h2 with ⟨_, rfl⟩ | ⟨_, rfl⟩
      · exact .number (some _) (.var (.field _ _))
      · exact .number none (.var (.field _ _))

theorem order_cases (o : Cmp) : o.isOrder = true ∨ o = .eq ∨ o = .ne := by
  cases o <;> simp [Cmp.isOrder]

/-- Equalities are formulas if negated ones are. -/
theorem equality_formula {vars : SExpr → Prop} {at_ : SExpr → Option Int → Int → Prop} {atoms : SExpr → Prop → Prop} {o : Cmp}
    {l r : SExpr} (ho : ¬ o.isOrder = true) (h : ∃ P, Formula vars at_ atoms (.cmp .eq l r) P) :
    ∃ P, Formula vars at_ atoms (.cmp o l r) P := by
  obtain ⟨P, h⟩ := h
  rcases order_cases o with h1 | rfl | rfl
  · exact absurd h1 ho
  · exact ⟨P, h⟩
  · exact ⟨_, .ne h⟩

theorem formula_exists {fs : List MatchField} {vs : List VarInfo} (hv : Each KeyDecl fs vs) (hpos : ∀ f ∈ fs, 0 ≤ f.bitwidth)
    (entry : RtEntry) {s : SExpr} (h : HasTy (keySig vs) s .boolean) (ho : ∀ x, Contains s x → ¬ OrdersKey x) :
    ∃ P, EntryFormula fs entry s P := by
  induction s with
  | bool b => cases b <;> exact ⟨_, by constructor⟩
  | not e ih =>
    cases h with
    | not h =>
      obtain ⟨P, hP⟩ := ih h fun x hx => ho x (.not hx)
      exact ⟨_, .not hP⟩
  | conn o l r ih1 ih2 =>
    cases h with
    | conn h1 h2 =>
      obtain ⟨P, hP⟩ := ih1 h1 fun x hx => ho x (.connL hx)
      obtain ⟨Q, hQ⟩ := ih2 h2 fun x hx => ho x (.connR hx)
      cases o
      · exact ⟨_, .and hP hQ⟩
      · exact ⟨_, .or hP hQ⟩
      · exact ⟨_, .implies hP hQ⟩
  | cmp o l r ih1 ih2 =>
    cases h with
    | @cmp _ _ _ a b t h1 h2 hj hord =>
      have o1 := operand_of hv h1
      have o2 := operand_of hv h2
      have notBool : ∀ {a b t : Ty}, IsJoin a b t → a = .boolean → b = .boolean := by
        rintro a b t hj rfl
        cases casts_boolean hj.1
        exact casts_to_boolean hj.2.1
      cases o1 with
      | bool =>
        cases notBool hj rfl
        cases casts_boolean hj.1
        obtain ⟨P, hP⟩ := ih1 h1 fun x hx => ho x (.cmpL hx)
        obtain ⟨Q, hQ⟩ := ih2 h2 fun x hx => ho x (.cmpR hx)
        exact equality_formula (fun h => by cases hord h) ⟨_, .iff hP hQ⟩
      | number w n1 =>
        cases o2 with
        | bool => have := notBool (isJoin_comm hj) rfl; cases w <;> cases this
        | number w' n2 => exact ⟨_, .compare o n1 n2⟩
        | key hf hk _ =>
          exact equality_formula (fun h => ho _ .here (.right _ _ h)) ⟨_, .atom (.right hf (hpos _ hf) n1)⟩
      | key hf hk _ =>
        cases o2 with
        | bool => have := notBool (isJoin_comm hj) rfl; cases hk <;> cases this
        | number w' n2 =>
          exact equality_formula (fun h => ho _ .here (.left _ _ h)) ⟨_, .atom (.left hf (hpos _ hf) n2)⟩
        | key hf' hk' _ => exact equality_formula (fun h => ho _ .here (.left _ _ h)) ⟨_, .atom (.same hf hf')⟩
  | int | attr | neg => cases h
  | key n =>
    generalize ht : Ty.boolean = t at h
    have := operand_of hv h
    cases h with
    | key h _ => exact absurd (ht ▸ h) ((keySig_noBool hv).1 n)
  | param n => cases h with | param h _ => cases h
  | field e f => cases h with | field _ h => cases h

/-- Operands of comparisons in constraints of actions. -/
theorem argument_of {fs : List ParamDecl} {vs : List VarInfo} (hv : Each ParamIs fs vs) {x : SExpr} {t : Ty}
    (h : HasTy (paramSig vs) x t) (hn : ∀ n, ¬ Contains x (.attr n)) : t = .boolean ∨ ∃ w, t = numberTy w ∧ IsNumber ArgVar x := by
  induction h with
  | bool | not | conn | cmp => exact .inl rfl
  | int z => exact .inr ⟨none, rfl, .int z⟩
  | priority => exact absurd .here (hn _)
  | key h => cases h
  | @param n t h hs =>
    obtain ⟨pi, hpi, rfl, rfl⟩ := keySig_mem_ty (vs := vs) h
    obtain ⟨f, hf, hfp⟩ := each_mem hv pi hpi
    cases hfp with
    | bits id n w => exact .inr ⟨some w, rfl, .var (.param _)⟩
    | named => exact absurd rfl (hs.2 _)
  | neg h ih =>
    rcases ih fun n hx => hn n (.neg hx) with h | ⟨w, h, hx⟩
    · cases h
    · exact .inr ⟨none, rfl, .neg hx⟩
  | field _ h2 ih =>
    rcases ih fun n hx => hn n (.field hx) with rfl | ⟨w, rfl, _⟩
    · cases h2
    · cases w <;> cases h2

theorem formula_action_exists {fs : List ParamDecl} {vs : List VarInfo} (hv : Each ParamIs fs vs)
    (a : RtAction) {s : SExpr} (h : HasTy (paramSig vs) s .boolean) (hn : ∀ n, ¬ Contains s (.attr n)) :
    ∃ P, ActionFormula fs a s P := by
  induction s with
  | bool b => cases b <;> exact ⟨_, by constructor⟩
  | not e ih =>
    cases h with
    | not h =>
      obtain ⟨P, hP⟩ := ih h fun x hx => hn x (.not hx)
      exact ⟨_, .not hP⟩
  | conn o l r ih1 ih2 =>
    cases h with
    | conn h1 h2 =>
      obtain ⟨P, hP⟩ := ih1 h1 fun x hx => hn x (.connL hx)
      obtain ⟨Q, hQ⟩ := ih2 h2 fun x hx => hn x (.connR hx)
      cases o
      · exact ⟨_, .and hP hQ⟩
      · exact ⟨_, .or hP hQ⟩
      · exact ⟨_, .implies hP hQ⟩
  | cmp o l r ih1 ih2 =>
    cases h with
    | @cmp _ _ _ a b t h1 h2 hj hord =>
      have n1 := fun x hx => hn x (.cmpL hx)
      have n2 := fun x hx => hn x (.cmpR hx)
      rcases argument_of hv h1 n1 with rfl | ⟨w, rfl, x1⟩
      · cases casts_boolean hj.1
        cases casts_to_boolean hj.2.1
        obtain ⟨P, hP⟩ := ih1 h1 n1
        obtain ⟨Q, hQ⟩ := ih2 h2 n2
        exact equality_formula (fun h => by cases hord h) ⟨_, .iff hP hQ⟩
      · rcases argument_of hv h2 n2 with rfl | ⟨w', rfl, x2⟩
        · cases casts_boolean hj.2.1
          have := casts_to_boolean hj.1
          cases w <;> cases this
        · exact ⟨_, .compare o x1 x2⟩
  | int | attr | neg => cases h
  | key n => cases h with | key h _ => cases h
  | param n =>
    generalize ht : Ty.boolean = t at h
    cases h with
    | param h _ => exact absurd (ht ▸ h) ((paramSig_noBool hv).2 n)
  | field e f => cases h with | field _ h => cases h

end P4C
