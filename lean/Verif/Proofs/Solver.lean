import Verif.Proofs.Symbolic
import Verif.Proofs.Entry2
import Verif.Proofs.Explain4

/-
Properties of the constraint solver of the symbolic interpreter.
-/

namespace P4C

open Spec

/-! ### Symbolic keys -/

/-- What `addSymbolicKey` returns. -/
inductive SymKeyFor (name : Str) : Ty → SymKey → List (Term .bool) → Prop where
  | exact (w : Nat) (hw : 0 < w) : SymKeyFor name (.exact w) (.exact ⟨.bv w, .const (cstr name) (.bv w)⟩) []
  | ternary (w : Nat) (hw : 0 < w) (v m : Term (.bv w)) : v = .const (cstr name) (.bv w) →
      m = .const (cstr (name ++ c!"_mask")) (.bv w) →
      SymKeyFor name (.ternary w) (.ternary ⟨.bv w, v⟩ ⟨.bv w, m⟩) [.eq (.bvand m v) v]
  | optional (w : Nat) (hw : 0 < w) (v m : Term (.bv w)) : v = .const (cstr name) (.bv w) →
      m = .const (cstr (name ++ c!"_mask")) (.bv w) →
      SymKeyFor name (.optionalMatch w) (.ternary ⟨.bv w, v⟩ ⟨.bv w, m⟩)
        [.eq (.bvand m v) v, .or (.eq m (.bvVal (BitVec.ofInt w 0))) (.eq m (.bvVal (BitVec.ofInt w (-1))))]
  | lpm (w : Nat) (hw : 0 < w) (v : Term (.bv w)) (p : Term .int) (x : Term (.bv w)) : v = .const (cstr name) (.bv w) →
      p = .const (cstr (name ++ c!"_prefix_length")) .int → x = .int2bv w (.sub (.intVal w) p) →
      SymKeyFor name (.lpm w) (.lpm ⟨.bv w, v⟩ ⟨.int, p⟩)
        [.and (.and (.ge p (.intVal 0)) (.le p (.intVal w))) (.eq (.shl (.lshr v x) x) v)]

theorem addSymbolicKey_iff {ki : VarInfo} {k : SymKey} {as : List (Term .bool)} :
    addSymbolicKey ki = .ok (k, as) ↔ SymKeyFor ki.name ki.ty k as := by
  obtain ⟨id, name, ty⟩ := ki
  constructor
  · intro h
    simp only [addSymbolicKey, Res.bind_eq_ok] at h
    obtain ⟨w, hw, h⟩ := h
    split at h
    · cases h
    rename_i hw0
    cases ty <;> simp only [typeBitwidthOrStatus, typeBitwidth] at hw <;> cases hw <;> dsimp only at h
    all_goals try split at h
    all_goals try cases h
    all_goals
      rename_i hneg
      obtain ⟨n, rfl⟩ := Int.eq_ofNat_of_zero_le (Int.not_lt.1 hneg)
      have hn : 0 < n := by omega
    · exact .exact n hn
    · exact .ternary n hn _ _ rfl rfl
    · exact .lpm n hn _ _ _ rfl rfl rfl
    · exact .optional n hn _ _ rfl rfl
  · dsimp only
    intro h
    cases h with
    | exact w hw =>
      simp only [addSymbolicKey, typeBitwidthOrStatus, typeBitwidth, Res.ok_bind]
      rw [if_neg (by omega), if_neg (by omega)]
      rfl
    | ternary w hw v m hv hm =>
      subst hv hm
      simp only [addSymbolicKey, typeBitwidthOrStatus, typeBitwidth, Res.ok_bind]
      rw [if_neg (by omega), if_neg (by omega)]
      rfl
    | optional w hw v m hv hm =>
      subst hv hm
      simp only [addSymbolicKey, typeBitwidthOrStatus, typeBitwidth, Res.ok_bind]
      rw [if_neg (by omega), if_neg (by omega)]
      rfl
    | lpm w hw v p x hv hp hx =>
      subst hv hp hx
      simp only [addSymbolicKey, typeBitwidthOrStatus, typeBitwidth, Res.ok_bind]
      rw [if_neg (by omega), if_neg (by omega)]
      rfl

theorem symKeyFor_val {n : Str} {t : Ty} {k : SymKey} {as : List (Term .bool)} (h : SymKeyFor n t k as) (m : Interp) :
    ∃ v, SymVal m t (.key k) v ∧ PosWidth t := by
  cases h with
  | exact w hw => exact ⟨_, .exact _ _, by simpa [PosWidth] using hw⟩
  | ternary w hw => exact ⟨_, .ternary _ _ _, by simpa [PosWidth] using hw⟩
  | optional w hw => exact ⟨_, .optional _ _ _, by simpa [PosWidth] using hw⟩
  | lpm w hw => exact ⟨_, .lpm _ _ _, by simpa [PosWidth] using hw⟩

/-! ### Bit-vector facts -/

theorem bvand_eq_iff {w : Nat} (m v : BitVec w) : m &&& v = v ↔ v.toNat &&& m.toNat = v.toNat := by
  rw [← BitVec.toNat_inj, BitVec.toNat_and, Nat.and_comm]

theorem ofInt_neg_one (w : Nat) : BitVec.ofInt w (-1) = BitVec.allOnes w := by
  apply BitVec.eq_of_toNat_eq
  rw [BitVec.toNat_ofInt, BitVec.toNat_allOnes]
  have : 0 < 2 ^ w := Nat.pow_pos (by decide)
  generalize 2 ^ w = n at this
  have h : ((-1 : Int) % (n : Int)) = n - 1 := by
    rw [show (-1 : Int) = ((n : Int) - 1) + (n : Int) * (-1) by omega, Int.add_mul_emod_self_left]
    exact Int.emod_eq_of_lt (by omega) (by omega)
  rw [h]
  omega

/-- The assertion on LPM keys: no bits outside the prefix. -/
theorem lpm_shift_iff {w : Nat} (v : BitVec w) {p : Int} (h0 : 0 ≤ p) (hp : p ≤ w) :
    (v >>> (BitVec.ofInt w (w - p))) <<< (BitVec.ofInt w (w - p)) = v ↔ 2 ^ (w - p.toNat) ∣ v.toNat := by
  obtain ⟨q, rfl⟩ := Int.eq_ofNat_of_zero_le h0
  have hk : (BitVec.ofInt w ((w : Int) - (q : Int))).toNat = w - q := by
    have e : (w : Int) - (q : Int) = ((w - q : Nat) : Int) := by omega
    rw [e, BitVec.ofInt_natCast, BitVec.toNat_ofNat]
    apply Nat.mod_eq_of_lt
    have : w < 2 ^ w := Nat.lt_two_pow_self
    omega
  rw [BitVec.ushiftRight_eq', BitVec.shiftLeft_eq', hk, ← BitVec.toNat_inj, BitVec.toNat_shiftLeft, BitVec.toNat_ushiftRight,
    Nat.shiftLeft_eq, Nat.shiftRight_eq_div_pow, Int.toNat_natCast]
  have hlt : v.toNat < 2 ^ w := v.isLt
  have hle : v.toNat / 2 ^ (w - q) * 2 ^ (w - q) ≤ v.toNat := Nat.div_mul_le_self _ _
  rw [Nat.mod_eq_of_lt (by omega)]
  constructor
  · intro h
    rw [← h]
    exact Nat.dvd_mul_left _ _
  · intro h
    exact Nat.div_mul_cancel h

/-! ### Concretizing keys -/

/-- The outcome of concretizing a key that has the value `v`. -/
def KeyOutcome (ki : VarInfo) (v : Value) : Option FieldMatch → Prop
  | none => WildcardOf ki.ty v
  | some fm => fm.fieldId = ki.id ∧ CanonicalMatch ki.ty fm.val ∧ MatchDenotes ki.ty fm.val v

theorem evalBytes {w : Nat} (t : Term (.bv w)) (m : Interp) :
    ∃ bs, z3ToBytes (evalToString m ⟨.bv w, t⟩) w = .ok bs ∧ bytesNat bs = (t.den m : BitVec w).toNat ∧ CanonicalBytes bs :=
  z3ToBytes_spec (t.den m : BitVec w)

theorem evalIsZero_iff {w : Nat} (t : Term (.bv w)) (m : Interp) :
    evalIsZero m ⟨.bv w, t⟩ = true ↔ (t.den m : BitVec w).toNat = 0 := by
  simp only [evalIsZero, beq_iff_eq]
  rw [← BitVec.toNat_inj]
  simp

theorem concretizeKey_spec {ki : VarInfo} {k : SymKey} {as : List (Term .bool)} {m : Interp}
    (h : SymKeyFor ki.name ki.ty k as) (ha : ∀ a ∈ as, a.den m = true) :
    (∃ r v, concretizeKey k ki m = .ok r ∧ SymVal m ki.ty (.key k) v ∧ KeyOutcome ki v r) ∨
    (concretizeKey k ki m = .crash ∧ ∃ w, ki.ty = .lpm w ∧ 2147483647 < w) := by
  obtain ⟨id, name, ty⟩ := ki
  dsimp only at h ⊢
  cases h with
  | exact w hw =>
    obtain ⟨bs, h1, h2, h3⟩ := evalBytes (.const (cstr name) (.bv w)) m
    refine .inl ⟨some ⟨id, .exact bs⟩, .exact (bytesNat bs), ?_, ?_, rfl, ?_, .exact _ _⟩
    · simp only [concretizeKey, typeBitwidthOrStatus, typeBitwidth, Res.ok_bind, getFieldAccess, if_true]
      erw [h1]
      rfl
    · rw [h2]
      exact .exact _ _
    · exact .exact h3 (by rw [h2]; exact BitVec.isLt _)
  | ternary w hw v k hv hk =>
    obtain ⟨bs, h1, h2, h3⟩ := evalBytes v m
    obtain ⟨ms, h4, h5, h6⟩ := evalBytes k m
    have hand : (v.den m : BitVec w).toNat &&& (k.den m : BitVec w).toNat = (v.den m : BitVec w).toNat := by
      have := ha _ (List.mem_cons_self ..)
      rw [den_eq] at this
      exact (bvand_eq_iff _ _).1 this
    cases hz : evalIsZero m ⟨.bv w, k⟩ with
    | true =>
      have hk0 := (evalIsZero_iff k m).1 hz
      have hv0 : (v.den m : BitVec w).toNat = 0 := by
        rw [hk0] at hand
        simpa using hand.symm
      refine .inl ⟨none, .ternary 0 0, ?_, ?_, .ternary _⟩
      · simp [concretizeKey, typeBitwidthOrStatus, typeBitwidth, getFieldAccess, hz]
      · have := SymVal.ternary (m := m) w v k
        erw [hv0, hk0] at this
        exact this
    | false =>
      refine .inl ⟨some ⟨id, .ternary bs ms⟩, .ternary (bytesNat bs) (bytesNat ms), ?_, ?_, rfl, ?_, .ternary _ _ _⟩
      · simp [concretizeKey, typeBitwidthOrStatus, typeBitwidth, getFieldAccess, hz, h1, h4]
      · rw [h2, h5]
        exact .ternary _ _ _
      · refine .ternary h3 h6 (by rw [h5]; exact BitVec.isLt _) ?_ (by rw [h2, h5, hand])
        intro h
        rw [h5, ← evalIsZero_iff, hz] at h
        cases h
  | optional w hw v k hv hk =>
    obtain ⟨bs, h1, h2, h3⟩ := evalBytes v m
    have hand : (v.den m : BitVec w).toNat &&& (k.den m : BitVec w).toNat = (v.den m : BitVec w).toNat := by
      have := ha _ (List.mem_cons_self ..)
      rw [den_eq] at this
      exact (bvand_eq_iff _ _).1 this
    have hmask : (k.den m : BitVec w).toNat = 0 ∨ (k.den m : BitVec w).toNat = 2 ^ w - 1 := by
      have := ha _ (List.mem_cons_of_mem _ (List.mem_cons_self ..))
      change ((Term.eq k _).den m || (Term.eq k _).den m) = true at this
      rw [Bool.or_eq_true, den_eq, den_eq] at this
      rcases this with h | h
      · left
        rw [h]
        show (BitVec.ofInt w 0).toNat = 0
        simp
      · right
        rw [h]
        show (BitVec.ofInt w (-1)).toNat = 2 ^ w - 1
        rw [ofInt_neg_one, BitVec.toNat_allOnes]
    cases hz : evalIsZero m ⟨.bv w, k⟩ with
    | true =>
      have hk0 := (evalIsZero_iff k m).1 hz
      have hv0 : (v.den m : BitVec w).toNat = 0 := by
        rw [hk0] at hand
        simpa using hand.symm
      refine .inl ⟨none, .ternary 0 0, ?_, ?_, .optional _⟩
      · simp [concretizeKey, typeBitwidthOrStatus, typeBitwidth, getFieldAccess, hz]
      · have := SymVal.optional (m := m) w v k
        erw [hv0, hk0] at this
        exact this
    | false =>
      have hk1 : (k.den m : BitVec w).toNat = 2 ^ w - 1 := by
        rcases hmask with h | h
        · rw [← evalIsZero_iff, hz] at h
          cases h
        · exact h
      refine .inl ⟨some ⟨id, .optional bs⟩, .ternary (bytesNat bs) (2 ^ w - 1), ?_, ?_, rfl, ?_, .optional _ _⟩
      · simp [concretizeKey, typeBitwidthOrStatus, typeBitwidth, getFieldAccess, hz, h1]
      · have := SymVal.optional (m := m) w v k
        erw [hk1] at this
        rw [h2]
        have e : (((2 ^ w - 1 : Nat)) : Int) = 2 ^ w - 1 := by
          have : 0 < 2 ^ w := Nat.pow_pos (by decide)
          have e2 : ((2 ^ w : Nat) : Int) = 2 ^ w := by simp
          omega
        rw [e] at this
        exact this
      · exact .optional h3 (by rw [h2]; exact BitVec.isLt _)
  | lpm w hw0 v p x hv hp hx =>
    obtain ⟨bs, h1, h2, h3⟩ := evalBytes v m
    have hass := ha _ (List.mem_cons_self ..)
    change (((decide ((0 : Int) ≤ p.den m)) && decide ((p.den m : Int) ≤ (w : Int))) && (Term.eq _ v).den m) = true at hass
    simp only [Bool.and_eq_true, decide_eq_true_eq] at hass
    obtain ⟨⟨hp0, hpw⟩, hshift⟩ := hass
    have hx' : (x.den m : BitVec w) = BitVec.ofInt w ((w : Int) - (p.den m : Int)) := by
      subst hx
      rfl
    have hdvd : 2 ^ (w - (p.den m : Int).toNat) ∣ (v.den m : BitVec w).toNat := by
      rw [← lpm_shift_iff _ hp0 hpw, ← hx']
      exact (den_eq _ _).1 hshift
    obtain ⟨q, hq⟩ := Int.eq_ofNat_of_zero_le hp0
    have hqw : (q : Int) ≤ (w : Int) := by
      rw [← hq]
      exact hpw
    by_cases hint : (p.den m : Int) < -2147483648 ∨ (p.den m : Int) > 2147483647
    · refine .inr ⟨?_, w, rfl, ?_⟩
      · simp only [concretizeKey, typeBitwidthOrStatus, typeBitwidth, Res.ok_bind, getFieldAccess]
        rw [if_neg (by decide), if_pos trivial, Res.ok_bind]
        dsimp only
        rw [if_pos hint]
      · have : ∀ z : Int, z = q → (z < -2147483648 ∨ z > 2147483647) → (2147483647 : Int) < q := by omega
        have := this _ hq hint
        omega
    by_cases hz : (p.den m : Int) = 0
    · have hv0 : (v.den m : BitVec w).toNat = 0 := by
        rw [hz] at hdvd
        have hlt := BitVec.isLt (v.den m : BitVec w)
        simp only [Int.toNat_zero, Nat.sub_zero] at hdvd
        exact Nat.eq_zero_of_dvd_of_lt hdvd hlt
      refine .inl ⟨none, .lpm 0 0, ?_, ?_, .lpm _⟩
      · simp only [concretizeKey, typeBitwidthOrStatus, typeBitwidth, Res.ok_bind, getFieldAccess]
        rw [if_neg (by decide), if_pos trivial, Res.ok_bind]
        dsimp only
        rw [if_neg hint, if_pos hz]
      · have := SymVal.lpm (m := m) w v p
        erw [hv0, hz] at this
        exact this
    · refine .inl ⟨some ⟨id, .lpm bs (p.den m)⟩, .lpm (bytesNat bs) (p.den m), ?_, ?_, rfl, ?_, .lpm _ _ _⟩
      · simp only [concretizeKey, typeBitwidthOrStatus, typeBitwidth, Res.ok_bind, getFieldAccess]
        rw [if_neg (by decide), if_pos trivial, Res.ok_bind]
        dsimp only
        rw [if_neg hint, if_neg hz, if_pos trivial, Res.ok_bind]
        erw [h1]
        rfl
      · rw [h2]
        exact .lpm _ _ _
      · have hq0 : q ≠ 0 := by
          rintro rfl
          exact hz hq
        rw [hq]
        refine .lpm h3 (by rw [h2]; exact BitVec.isLt _) (by omega) (by omega) ?_
        rw [h2]
        rw [hq] at hdvd
        exact hdvd

/-! ### Creating a solver -/

theorem createKeys_ok {skip : Str → Res Bool} : ∀ (l : List (Str × VarInfo)) {ks ks' : List (Str × SymKey)}
    {as as' : List (Term .bool)}, (l.map Prod.fst).Nodup → (∀ x ∈ l, lookup x.1 ks = none) →
    createKeys skip ks as l = .ok (ks', as') →
    (∀ n, (∀ ki, (n, ki) ∉ l) → lookup n ks' = lookup n ks) ∧
    (∀ n ki, (n, ki) ∈ l → (skip n = .ok true ∧ lookup n ks' = none) ∨
      (skip n = .ok false ∧ ∃ k a, SymKeyFor ki.name ki.ty k a ∧ lookup n ks' = some k ∧ ∀ t ∈ a, t ∈ as')) ∧
    (∀ t ∈ as, t ∈ as') ∧
    (∀ t ∈ as', t ∈ as ∨ ∃ n ki k a, (n, ki) ∈ l ∧ skip n = .ok false ∧ SymKeyFor ki.name ki.ty k a ∧ t ∈ a) := by
  intro l
  induction l with
  | nil =>
    intro ks ks' as as' _ _ h
    simp only [createKeys, Res.ok.injEq, Prod.mk.injEq] at h
    obtain ⟨rfl, rfl⟩ := h
    exact ⟨fun _ _ => rfl, by simp, fun _ h => h, fun _ h => .inl h⟩
  | cons x l ih =>
    obtain ⟨n, ki⟩ := x
    intro ks ks' as as' hn hd h
    simp only [List.map_cons, List.nodup_cons] at hn
    have hnl : ∀ ki', (n, ki') ∉ l := fun ki' hm => hn.1 (List.mem_map.2 ⟨_, hm, rfl⟩)
    simp only [createKeys, Res.bind_eq_ok] at h
    obtain ⟨b, hb, h⟩ := h
    cases b with
    | true =>
      rw [if_pos rfl] at h
      obtain ⟨h1, h2, h3, h4⟩ := ih hn.2 (fun x hx => hd x (List.mem_cons_of_mem _ hx)) h
      refine ⟨fun n' hn' => h1 n' fun ki' hm => hn' ki' (List.mem_cons_of_mem _ hm), ?_, h3, ?_⟩
      · intro n' ki' hm
        rcases List.mem_cons.1 hm with hm | hm
        · cases hm
          exact .inl ⟨hb, by rw [h1 n hnl]; exact hd _ (List.mem_cons_self ..)⟩
        · exact h2 n' ki' hm
      · intro t ht
        rcases h4 t ht with h | ⟨n', ki', k, a, hm, h⟩
        · exact .inl h
        · exact .inr ⟨n', ki', k, a, List.mem_cons_of_mem _ hm, h⟩
    | false =>
      rw [if_neg (by decide)] at h
      simp only [Res.bind_eq_ok] at h
      obtain ⟨⟨k, a⟩, hk, h⟩ := h
      have hk' := addSymbolicKey_iff.1 hk
      dsimp only at h
      have hnone : lookup n ks = none := hd _ (List.mem_cons_self ..)
      have hins : insertNew n k ks = some ((n, k) :: ks) :=
        insertNew_some.2 ⟨by simp [hasKey, hnone], rfl⟩
      rw [hins, Option.getD_some] at h
      have hlk : ∀ n', lookup n' ((n, k) :: ks) = if n' = n then some k else lookup n' ks := by
        intro n'
        simp only [lookup]
        by_cases hnn : n' = n
        · subst hnn; simp
        · simp [hnn, Ne.symm hnn]
      obtain ⟨h1, h2, h3, h4⟩ := ih hn.2 (fun x hx => by
        rw [hlk, if_neg (fun he => hnl x.2 (by rw [← he]; exact hx))]
        exact hd x (List.mem_cons_of_mem _ hx)) h
      refine ⟨?_, ?_, fun t ht => h3 t (List.mem_append_left _ ht), ?_⟩
      · intro n' hn'
        rw [h1 n' (fun ki' hm => hn' ki' (List.mem_cons_of_mem _ hm)), hlk, if_neg]
        rintro rfl
        exact hn' ki (List.mem_cons_self ..)
      · intro n' ki' hm
        rcases List.mem_cons.1 hm with hm | hm
        · cases hm
          refine .inr ⟨hb, k, a, hk', ?_, fun t ht => h3 t (List.mem_append_right _ ht)⟩
          rw [h1 n hnl, hlk, if_pos rfl]
        · exact h2 n' ki' hm
      · intro t ht
        rcases h4 t ht with h | ⟨n', ki', k, a, hm, h⟩
        · rcases List.mem_append.1 h with h | h
          · exact .inl h
          · exact .inr ⟨n, ki, k, a, List.mem_cons_self .., hb, hk', h⟩
        · exact .inr ⟨n', ki', k, a, List.mem_cons_of_mem _ hm, h⟩

theorem createKeys_total {skip : Str → Res Bool} : ∀ (l : List (Str × VarInfo)) (ks : List (Str × SymKey))
    (as : List (Term .bool)), (∀ n ki, (n, ki) ∈ l → skip n = .ok true ∨
      skip n = .ok false ∧ ∃ k a, SymKeyFor ki.name ki.ty k a) →
    ∃ ks' as', createKeys skip ks as l = .ok (ks', as') := by
  intro l
  induction l with
  | nil => exact fun ks as _ => ⟨ks, as, rfl⟩
  | cons x l ih =>
    obtain ⟨n, ki⟩ := x
    intro ks as h
    have ht := fun n ki hm => h n ki (List.mem_cons_of_mem _ hm)
    rcases h n ki (List.mem_cons_self ..) with h | ⟨h, k, a, hk⟩
    · simp only [createKeys, h, Res.ok_bind, if_true]
      exact ih _ _ ht
    · simp only [createKeys, h, Res.ok_bind, Bool.false_eq_true, if_false, addSymbolicKey_iff.2 hk]
      exact ih _ _ ht

/-- Does the loop of `Create` find that the table has priorities? -/
def prioritized (ti : TableInfo) : Bool := (ordered ti.keysByName).any fun kv => needsPriority kv.2.ty

theorem prioritized_iff {ti : TableInfo} : prioritized ti = true ↔ HasPriority ti := by
  simp only [prioritized, List.any_eq_true, Prod.exists, HasPriority, (ordered_perm ti.keysByName).mem_iff]
  constructor
  · rintro ⟨n, ki, hm, h⟩
    refine ⟨n, ki, hm, ?_⟩
    cases hty : ki.ty <;> simp [hty, needsPriority] at h <;> simp
  · rintro ⟨n, ki, hm, w, h | h⟩ <;> exact ⟨n, ki, hm, by rw [h]; rfl⟩

/-- The environment of a solver. -/
def solverEnv (ti : TableInfo) (ks : List (Str × SymKey)) : SymEnv :=
  ⟨ks, if prioritized ti then [(c!"priority", ⟨.int, priorityTerm⟩)] else []⟩

/-- The assertions of a solver without constraints. -/
def baseAssertions (ti : TableInfo) (as : List (Term .bool)) : List (Term .bool) :=
  as ++ if prioritized ti then priorityAssertions else []

/-- The solver before the constraint of the table is added. -/
def initSolver (ti : TableInfo) (skip : Str → Res Bool) (ks : List (Str × SymKey)) (as : List (Term .bool)) : Solver :=
  ⟨0, baseAssertions ti as, ti, solverEnv ti ks, skip⟩

theorem create_eq (z : Z3Oracle) (ti : TableInfo) (skip : Str → Res Bool) :
    Solver.create z ti skip = (createKeys skip [] [] (ordered ti.keysByName) >>= fun p =>
      match ti.constraint with
      | none => .ok (initSolver ti skip p.1 p.2)
      | some c =>
        match (initSolver ti skip p.1 p.2).addConstraint z c ti.source with
        | (.ok true, s) => .ok s
        | (.ok false, _) => .err .invalidArgument
        | (.err c, _) => .err c
        | (.crash, _) => .crash
        | (.oof, _) => .oof) := by
  unfold Solver.create
  dsimp only
  cases createKeys skip [] [] (ordered ti.keysByName) with
  | ok p =>
    obtain ⟨ks, as⟩ := p
    simp only [Res.ok_bind]
    have : (if ((ordered ti.keysByName).any fun kv => needsPriority kv.2.ty) = true then
        (⟨0, as ++ priorityAssertions, ti, ⟨ks, [(c!"priority", ⟨.int, priorityTerm⟩)]⟩, skip⟩ : Solver)
      else ⟨0, as, ti, ⟨ks, []⟩, skip⟩) = initSolver ti skip ks as := by
      unfold initSolver baseAssertions solverEnv prioritized
      split <;> simp
    rw [this]
    cases ti.constraint with
    | none => rfl
    | some c => rfl
  | _ => rfl

theorem create_ok {z : Z3Oracle} {ti : TableInfo} {skip : Str → Res Bool} {s : Solver} :
    Solver.create z ti skip = .ok s ↔ ∃ ks as, createKeys skip [] [] (ordered ti.keysByName) = .ok (ks, as) ∧
      ((ti.constraint = none ∧ s = initSolver ti skip ks as) ∨
       ∃ c, ti.constraint = some c ∧ (initSolver ti skip ks as).addConstraint z c ti.source = (.ok true, s)) := by
  rw [create_eq, Res.bind_eq_ok]
  constructor
  · rintro ⟨⟨ks, as⟩, h, h'⟩
    refine ⟨ks, as, h, ?_⟩
    cases hc : ti.constraint with
    | none =>
      rw [hc] at h'
      exact .inl ⟨rfl, (Res.ok.inj h').symm⟩
    | some c =>
      rw [hc] at h'
      dsimp only at h'
      refine .inr ⟨c, rfl, ?_⟩
      generalize (initSolver ti skip ks as).addConstraint z c ti.source = r at h' ⊢
      obtain ⟨r, s'⟩ := r
      cases r with
      | ok b => cases b <;> cases h' <;> rfl
      | _ => cases h'
  · rintro ⟨ks, as, h, h'⟩
    refine ⟨(ks, as), h, ?_⟩
    rcases h' with ⟨hc, rfl⟩ | ⟨c, hc, h'⟩
    · rw [hc]
    · rw [hc]
      dsimp only
      rw [h']

/-! ### Adding constraints -/

/-- The effect of `AddConstraint`. -/
theorem addConstraint_cases {z : Z3Oracle} {s s' : Solver} {c : Expr} {src : ConstraintSource} {r : Res Bool}
    (h : s.addConstraint z c src = (r, s')) :
    s'.table = s.table ∧ s'.env = s.env ∧ s'.skip = s.skip ∧
    ((r = .ok true ∧ ∃ t, evaluateConstraintSymbolically c src s.env = .ok ⟨.bool, t⟩ ∧
        s'.assertions = s.assertions ++ [t] ∧ ∃ n val hi, z.check n s'.assertions = .sat val hi) ∨
     (r ≠ .ok true ∧ s'.assertions = s.assertions)) := by
  unfold Solver.addConstraint Solver.check at h
  dsimp only at h
  split at h
  · split at h
    · split at h
      · cases h
        rename_i t heq _ val hi hsat
        exact ⟨rfl, rfl, rfl, .inl ⟨rfl, t, heq, rfl, _, _, _, hsat⟩⟩
      · cases h
        exact ⟨rfl, rfl, rfl, .inr ⟨nofun, rfl⟩⟩
    all_goals
      cases h
      exact ⟨rfl, rfl, rfl, .inr ⟨nofun, rfl⟩⟩
  · cases h
    exact ⟨rfl, rfl, rfl, .inr ⟨nofun, rfl⟩⟩

theorem addConstraintStr_cases {z : Z3Oracle} {sys : Sys} {s s' : Solver} {text : Str} {r : Res Bool}
    (h : s.addConstraintStr z sys text = (r, s')) :
    (∃ e c, parseConstraint sys .table ⟨text, { src := .tableName s.table.name }⟩ = .ok e ∧
      inferAndCheck s.table.source (.table s.table.keysByName) e = .ok c ∧
      s.addConstraint z c ⟨text, { src := .tableName s.table.name }⟩ = (r, s')) ∨
    (r ≠ .ok true ∧ s' = s) := by
  unfold Solver.addConstraintStr at h
  dsimp only at h
  split at h
  · rename_i c hc
    rw [Res.bind_eq_ok] at hc
    obtain ⟨e, he, hc⟩ := hc
    exact .inl ⟨e, c, he, hc, h⟩
  all_goals
    cases h
    exact .inr ⟨nofun, rfl⟩

theorem concretize_state {z : Z3Oracle} {s s' : Solver} {r : Res RtEntry} (h : s.concretize z = (r, s')) :
    s'.table = s.table ∧ s'.env = s.env ∧ s'.skip = s.skip ∧ s'.assertions = s.assertions := by
  unfold Solver.concretize Solver.check at h
  dsimp only at h
  split at h <;> cases h <;> exact ⟨rfl, rfl, rfl, rfl⟩

/-- What holds of a solver in every history. -/
structure SolverInv (ti : TableInfo) (skip : Str → Res Bool) (ks : List (Str × SymKey)) (as : List (Term .bool))
    (s : Solver) (cs : List Expr) : Prop where
  keys : createKeys skip [] [] (ordered ti.keysByName) = .ok (ks, as)
  table : s.table = ti
  skip : s.skip = skip
  env : s.env = solverEnv ti ks
  assertions : ∃ ts, s.assertions = baseAssertions ti as ++ ts ∧
    (∀ c ∈ cs, ∃ t ∈ ts, ∃ src, evaluateConstraintSymbolically c src s.env = .ok ⟨.bool, t⟩) ∧
    (∀ t ∈ ts, ∃ c ∈ cs, ∃ src, evaluateConstraintSymbolically c src s.env = .ok ⟨.bool, t⟩)

theorem SolverInv.same {ti : TableInfo} {skip : Str → Res Bool} {ks : List (Str × SymKey)} {as : List (Term .bool)}
    {s s' : Solver} {cs : List Expr} (h : SolverInv ti skip ks as s cs) (h1 : s'.table = s.table) (h2 : s'.env = s.env)
    (h3 : s'.skip = s.skip) (h4 : s'.assertions = s.assertions) : SolverInv ti skip ks as s' cs :=
  ⟨h.keys, h1.trans h.table, h3.trans h.skip, h2.trans h.env, by rw [h4, h2]; exact h.assertions⟩

theorem SolverInv.add {ti : TableInfo} {skip : Str → Res Bool} {ks : List (Str × SymKey)} {as : List (Term .bool)}
    {z : Z3Oracle} {s s' : Solver} {c : Expr} {src : ConstraintSource} {cs : List Expr} (h : SolverInv ti skip ks as s cs)
    (hadd : s.addConstraint z c src = (.ok true, s')) : SolverInv ti skip ks as s' (c :: cs) := by
  obtain ⟨h1, h2, h3, h4⟩ := addConstraint_cases hadd
  rcases h4 with ⟨_, t, ht, hass, _⟩ | ⟨hne, _⟩
  · refine ⟨h.keys, h1.trans h.table, h3.trans h.skip, h2.trans h.env, ?_⟩
    obtain ⟨ts, hts, hc, ht'⟩ := h.assertions
    refine ⟨ts ++ [t], by rw [hass, hts, List.append_assoc], ?_, ?_⟩
    · intro c' hc'
      rw [h2]
      rcases List.mem_cons.1 hc' with rfl | hc'
      · exact ⟨t, by simp, src, ht⟩
      · obtain ⟨t', h1, h2⟩ := hc c' hc'
        exact ⟨t', by simp [h1], h2⟩
    · intro t' ht''
      rw [h2]
      rcases List.mem_append.1 ht'' with h | h
      · obtain ⟨c', h1, h2⟩ := ht' t' h
        exact ⟨c', List.mem_cons_of_mem _ h1, h2⟩
      · rw [List.mem_singleton.1 h]
        exact ⟨c, List.mem_cons_self .., src, ht⟩
  · exact (hne rfl).elim

theorem reachable_inv {z : Z3Oracle} {sys : Sys} {ti : TableInfo} {skip : Str → Res Bool} {s : Solver} {cs : List Expr}
    (h : Reachable z sys ti skip s cs) : ∃ ks as, SolverInv ti skip ks as s cs := by
  induction h with
  | create h =>
    obtain ⟨ks, as, hk, h⟩ := create_ok.1 h
    have h0 : SolverInv ti skip ks as (initSolver ti skip ks as) [] :=
      ⟨hk, rfl, rfl, rfl, [], by simp [initSolver], by simp, by simp⟩
    rcases h with ⟨hc, rfl⟩ | ⟨c, hc, h⟩
    · rw [hc]
      exact ⟨ks, as, h0⟩
    · rw [hc]
      exact ⟨ks, as, h0.add h⟩
  | accepted _ h ih =>
    obtain ⟨ks, as, ih⟩ := ih
    exact ⟨ks, as, ih.add h⟩
  | rejected _ h hr ih =>
    obtain ⟨ks, as, ih⟩ := ih
    obtain ⟨h1, h2, h3, h4⟩ := addConstraint_cases h
    rcases h4 with ⟨hr', _⟩ | ⟨_, h4⟩
    · exact (hr hr').elim
    · exact ⟨ks, as, ih.same h1 h2 h3 h4⟩
  | acceptedText _ h hp hi ih =>
    obtain ⟨ks, as, ih⟩ := ih
    rcases addConstraintStr_cases h with ⟨e, c, he, hc, h⟩ | ⟨hne, _⟩
    · rw [ih.table, hp] at he
      cases he
      rw [ih.table, hi] at hc
      cases hc
      exact ⟨ks, as, ih.add h⟩
    · exact (hne rfl).elim
  | rejectedText _ h hr ih =>
    obtain ⟨ks, as, ih⟩ := ih
    rcases addConstraintStr_cases h with ⟨e, c, he, hc, h⟩ | ⟨_, rfl⟩
    · obtain ⟨h1, h2, h3, h4⟩ := addConstraint_cases h
      rcases h4 with ⟨hr', _⟩ | ⟨_, h4⟩
      · exact (hr hr').elim
      · exact ⟨ks, as, ih.same h1 h2 h3 h4⟩
    · exact ⟨ks, as, ih⟩
  | concretize _ h ih =>
    obtain ⟨ks, as, ih⟩ := ih
    obtain ⟨h1, h2, h3, h4⟩ := concretize_state h
    exact ⟨ks, as, ih.same h1 h2 h3 h4⟩

/-! ### Concretized entries -/

theorem concretizeKeys_spec {skip : Str → Res Bool} {env : SymEnv} {m : Interp} : ∀ (l : List (Str × VarInfo))
    {fms : List FieldMatch}, (l.map fun x => x.2.id).Nodup →
    (∀ n ki, (n, ki) ∈ l → skip n = .ok false → ∃ k a, lookup n env.keys = some k ∧ SymKeyFor ki.name ki.ty k a ∧
      ∀ t ∈ a, t.den m = true) →
    concretizeKeys skip env m l = .ok fms →
    (fms.map FieldMatch.fieldId).Sublist (l.map fun x => x.2.id) ∧
    (∀ fm ∈ fms, ∃ n ki, (n, ki) ∈ l ∧ skip n = .ok false ∧ fm.fieldId = ki.id ∧ CanonicalMatch ki.ty fm.val) ∧
    (∀ n ki, (n, ki) ∈ l → (skip n = .ok true ∧ ∀ fm ∈ fms, fm.fieldId ≠ ki.id) ∨
      skip n = .ok false ∧ ∃ k v, lookup n env.keys = some k ∧ SymVal m ki.ty (.key k) v ∧
      ((∃ fm ∈ fms, fm.fieldId = ki.id ∧ MatchDenotes ki.ty fm.val v) ∨
       (WildcardOf ki.ty v ∧ ∀ fm ∈ fms, fm.fieldId ≠ ki.id))) := by
  intro l
  induction l with
  | nil =>
    intro fms _ _ h
    cases h
    exact ⟨List.Sublist.refl _, by simp, by simp⟩
  | cons x l ih =>
    obtain ⟨n, ki⟩ := x
    intro fms hn hk h
    simp only [List.map_cons, List.nodup_cons] at hn
    have hnot : ∀ fms' : List FieldMatch, (fms'.map FieldMatch.fieldId).Sublist (l.map fun x => x.2.id) →
        ∀ fm ∈ fms', fm.fieldId ≠ ki.id := by
      intro fms' hs fm hfm he
      exact hn.1 (he ▸ hs.subset (List.mem_map.2 ⟨fm, hfm, rfl⟩))
    simp only [concretizeKeys, Res.bind_eq_ok] at h
    obtain ⟨b, hb, h⟩ := h
    have hk' := fun n ki hm => hk n ki (List.mem_cons_of_mem _ hm)
    cases b with
    | true =>
      rw [if_pos rfl] at h
      obtain ⟨h1, h2, h3⟩ := ih hn.2 hk' h
      refine ⟨h1.cons _, ?_, ?_⟩
      · intro fm hfm
        obtain ⟨n', ki', hm, h⟩ := h2 fm hfm
        exact ⟨n', ki', List.mem_cons_of_mem _ hm, h⟩
      · intro n' ki' hm
        rcases List.mem_cons.1 hm with hm | hm
        · cases hm
          exact .inl ⟨hb, hnot _ h1⟩
        · exact h3 n' ki' hm
    | false =>
      rw [if_neg (by decide)] at h
      simp only [Res.bind_eq_ok] at h
      obtain ⟨k, hkk, r, hr, fms', hf, h⟩ := h
      obtain ⟨h1, h2, h3⟩ := ih hn.2 hk' hf
      obtain ⟨k', a, hlk, hsk, ha⟩ := hk n ki (List.mem_cons_self ..) hb
      have hkk' : k = k' := by
        simp only [findPtrOrStatus, hlk] at hkk
        exact (Res.ok.inj hkk).symm
      subst hkk'
      rcases concretizeKey_spec hsk ha with ⟨r', v, hr', hv, ho⟩ | ⟨hcr, _⟩
      · rw [hr] at hr'
        cases hr'
        cases r with
        | none =>
          dsimp only at h
          cases h
          refine ⟨h1.cons _, ?_, ?_⟩
          · intro fm hfm
            obtain ⟨n', ki', hm, h⟩ := h2 fm hfm
            exact ⟨n', ki', List.mem_cons_of_mem _ hm, h⟩
          · intro n' ki' hm
            rcases List.mem_cons.1 hm with hm | hm
            · cases hm
              exact .inr ⟨hb, k, v, hlk, hv, .inr ⟨ho, hnot _ h1⟩⟩
            · exact h3 n' ki' hm
        | some fm =>
          dsimp only at h
          cases h
          obtain ⟨hid, hcan, hden⟩ := ho
          refine ⟨?_, ?_, ?_⟩
          · simp only [List.map_cons, hid]
            exact h1.cons_cons _
          · intro fm' hfm
            rcases List.mem_cons.1 hfm with rfl | hfm
            · exact ⟨n, ki, List.mem_cons_self .., hb, hid, hcan⟩
            · obtain ⟨n', ki', hm, h⟩ := h2 fm' hfm
              exact ⟨n', ki', List.mem_cons_of_mem _ hm, h⟩
          · intro n' ki' hm
            rcases List.mem_cons.1 hm with hm | hm
            · cases hm
              exact .inr ⟨hb, k, v, hlk, hv, .inl ⟨fm, List.mem_cons_self .., hid, hden⟩⟩
            · have hne : fm.fieldId ≠ ki'.id := by
                rw [hid]
                intro he
                exact hn.1 (List.mem_map.2 ⟨_, hm, he.symm⟩)
              rcases h3 n' ki' hm with ⟨h, h'⟩ | ⟨hs, k', v', hl, hv', h⟩
              · refine .inl ⟨h, ?_⟩
                intro fm' hfm
                rcases List.mem_cons.1 hfm with rfl | hfm
                · exact hne
                · exact h' fm' hfm
              · refine .inr ⟨hs, k', v', hl, hv', ?_⟩
                rcases h with ⟨fm', hfm, h⟩ | ⟨h, h'⟩
                · exact .inl ⟨fm', List.mem_cons_of_mem _ hfm, h⟩
                · refine .inr ⟨h, ?_⟩
                  intro fm' hfm
                  rcases List.mem_cons.1 hfm with rfl | hfm
                  · exact hne
                  · exact h' fm' hfm
      · rw [hr] at hcr
        cases hcr

theorem ordered_mem {α : Type} {l : List (Str × α)} {x : Str × α} : x ∈ ordered l ↔ x ∈ l := (ordered_perm l).mem_iff

theorem ordered_nodup {α : Type} {l : List (Str × α)} (h : (l.map Prod.fst).Nodup) :
    ((ordered l).map Prod.fst).Nodup := ((ordered_perm l).map Prod.fst).nodup_iff.2 h

theorem Spec.TableWF.ids_nodup {ti : TableInfo} (h : TableWF ti) :
    ((ordered ti.keysByName).map fun x => x.2.id).Nodup := by
  have h1 : (ordered ti.keysByName).Pairwise fun x y => x.1 ≠ y.1 := by
    have := ordered_nodup h.nodupName
    rw [List.nodup_iff_pairwise_ne, List.pairwise_map] at this
    exact this
  rw [List.nodup_iff_pairwise_ne, List.pairwise_map]
  refine h1.imp_of_mem ?_
  rintro ⟨n, ki⟩ ⟨n', ki'⟩ hx hy hne he
  obtain ⟨hn, hi⟩ := h.byName _ _ (ordered_mem.1 hx)
  obtain ⟨hn', hi'⟩ := h.byName _ _ (ordered_mem.1 hy)
  dsimp only at he hne
  rw [he] at hi
  have := nodup_keys_unique h.nodupId hi hi'
  subst this
  exact hne (hn.symm.trans hn')

/-- The symbolic keys of a solver. -/
theorem SolverInv.key {ti : TableInfo} {skip : Str → Res Bool} {ks : List (Str × SymKey)} {as : List (Term .bool)}
    {s : Solver} {cs : List Expr} (h : SolverInv ti skip ks as s cs) (hwf : TableWF ti) :
    (∀ n ki, (n, ki) ∈ ti.keysByName → (skip n = .ok true ∧ lookup n ks = none) ∨
      (skip n = .ok false ∧ ∃ k a, SymKeyFor ki.name ki.ty k a ∧ lookup n ks = some k ∧ ∀ t ∈ a, t ∈ s.assertions)) ∧
    (∀ n k, lookup n ks = some k → ∃ ki, (n, ki) ∈ ti.keysByName) ∧
    (∀ t ∈ as, ∃ n ki k a, (n, ki) ∈ ti.keysByName ∧ skip n = .ok false ∧ SymKeyFor ki.name ki.ty k a ∧ t ∈ a) := by
  obtain ⟨h1, h2, h3, h4⟩ := createKeys_ok _ (ordered_nodup hwf.nodupName) (fun _ _ => rfl) h.keys
  obtain ⟨ts, hts, _⟩ := h.assertions
  refine ⟨?_, ?_, ?_⟩
  · intro n ki hm
    rcases h2 n ki (ordered_mem.2 hm) with h | ⟨h, k, a, hk, hl, ha⟩
    · exact .inl h
    · refine .inr ⟨h, k, a, hk, hl, fun t ht => ?_⟩
      rw [hts]
      exact List.mem_append_left _ (List.mem_append_left _ (ha t ht))
  · intro n k hk
    apply Classical.byContradiction
    intro hno
    rw [h1 n fun ki hm => hno ⟨ki, ordered_mem.1 hm⟩] at hk
    cases hk
  · intro t ht
    rcases h4 t ht with h | ⟨n, ki, k, a, hm, h⟩
    · cases h
    · exact ⟨n, ki, k, a, ordered_mem.1 hm, h⟩

/-- What `ConcretizeEntry` returns. -/
theorem concretize_spec {z : Z3Oracle} {ti : TableInfo} {skip : Str → Res Bool} {ks : List (Str × SymKey)}
    {as : List (Term .bool)} {s s' : Solver} {cs : List Expr} {entry : RtEntry} (h : SolverInv ti skip ks as s cs)
    (hz : z.Sound) (hwf : TableWF ti) (hc : s.concretize z = (.ok entry, s')) :
    ∃ m : Interp, (∃ hi, z.check s.calls s.assertions = .sat m hi) ∧
      (∀ a ∈ s.assertions, a.den m = true) ∧ entry.action = none ∧
      CanonicalEntry ti (fun n => skip n = .ok true) entry ∧
      (∀ n ki, (n, ki) ∈ ti.keysByName → (skip n = .ok true ∧ ∀ fm ∈ entry.matches_, fm.fieldId ≠ ki.id) ∨
        skip n = .ok false ∧ ∃ k v, lookup n ks = some k ∧ SymVal m ki.ty (.key k) v ∧ KeyValue entry ki v) ∧
      (prioritized ti = true → entry.priority = priorityTerm.den m) := by
  unfold Solver.concretize Solver.check at hc
  dsimp only at hc
  split at hc
  rotate_left
  · cases hc
  rename_i m hi hsat
  have hm := hz.sat _ _ _ _ hsat
  injection hc with hc _
  simp only [Res.bind_eq_ok] at hc
  obtain ⟨fms, hf, p, hp, hc⟩ := hc
  cases hc
  refine ⟨m, ⟨hi, hsat⟩, hm, rfl, ?_⟩
  obtain ⟨hk1, hk2, hk3⟩ := h.key hwf
  have hks : s.env.keys = ks := by rw [h.env]; rfl
  rw [h.table, h.skip] at hf
  obtain ⟨c1, c2, c3⟩ := concretizeKeys_spec _ hwf.ids_nodup (m := m) (by
    intro n ki hmem hsk
    rcases hk1 n ki (ordered_mem.1 hmem) with ⟨h, _⟩ | ⟨_, k, a, hk, hl, ha⟩
    · rw [hsk] at h
      cases h
    · exact ⟨k, a, by rw [hks]; exact hl, hk, fun t ht => hm t (ha t ht)⟩) hf
  have hprio : prioritized ti = true → p = (priorityTerm.den m : Int) ∧ (0 : Int) < p ∧ p < 2 ^ 31 := by
    intro hpr
    rw [h.env] at hp
    unfold concretizePriority solverEnv at hp
    rw [hpr, if_pos rfl] at hp
    dsimp only [lookup, priorityTerm] at hp
    rw [if_pos rfl] at hp
    dsimp only at hp
    split at hp
    · split at hp
      · cases hp
      · cases hp
        have h1 : (Term.gt priorityTerm (.intVal 0)).den m = true := by
          apply hm
          obtain ⟨ts, hts, _⟩ := h.assertions
          rw [hts, baseAssertions, if_pos hpr]
          simp [priorityAssertions]
        have h2 : (Term.le priorityTerm (.intVal 2147483647)).den m = true := by
          apply hm
          obtain ⟨ts, hts, _⟩ := h.assertions
          rw [hts, baseAssertions, if_pos hpr]
          simp [priorityAssertions]
        have h1 := of_decide_eq_true h1
        have h2 := of_decide_eq_true h2
        refine ⟨rfl, h1, ?_⟩
        have : ∀ z : Int, z ≤ 2147483647 → z < 2 ^ 31 := by omega
        exact this _ h2
    · cases hp
  refine ⟨?_, ?_, fun hpr => (hprio hpr).1⟩
  · constructor
    · exact congrArg TableInfo.id h.table
    · intro fm hfm
      obtain ⟨n, ki, hmem, hsk, hid, hcan⟩ := c2 fm hfm
      exact ⟨n, ki, ordered_mem.1 hmem, by rw [hsk]; nofun, hid, hcan⟩
    · exact c1.nodup hwf.ids_nodup
    · intro n ki w hmem hty hsk
      rcases c3 n ki (ordered_mem.2 hmem) with ⟨h, _⟩ | ⟨_, k, v, _, _, h⟩
      · exact (hsk h).elim
      · rcases h with ⟨fm, hfm, hid, _⟩ | ⟨hw, _⟩
        · exact ⟨fm, hfm, hid⟩
        · rw [hty] at hw
          cases hw
    · cases hpr : prioritized ti with
      | true => exact .inl ⟨prioritized_iff.1 hpr, (hprio hpr).2⟩
      | false =>
        refine .inr ⟨fun hh => ?_, ?_⟩
        · rw [prioritized_iff.2 hh] at hpr
          cases hpr
        · rw [h.env] at hp
          unfold concretizePriority solverEnv at hp
          rw [hpr] at hp
          cases hp
          rfl
  · intro n ki hmem
    rcases c3 n ki (ordered_mem.2 hmem) with h | ⟨hsk, k, v, hl, hv, h⟩
    · exact .inl h
    · refine .inr ⟨hsk, k, v, by rw [← hks]; exact hl, hv, ?_⟩
      rcases h with ⟨fm, hfm, h⟩ | ⟨h1, h2⟩
      · exact .inl ⟨fm, hfm, h⟩
      · exact .inr ⟨h2, h1⟩

end P4C
