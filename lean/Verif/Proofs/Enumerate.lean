import Verif.Spec.Enumerate
import Verif.Proofs.Obtain

/-
Lemmas for C97: there are finitely many entries in canonical form.
-/

namespace P4C

open Spec

theorem nodup_length_le {N : Nat} : ∀ {l : List Nat}, l.Nodup → (∀ x ∈ l, x < N) → l.length ≤ N := by
  induction N with
  | zero =>
    intro l _ h
    cases l with
    | nil => simp
    | cons x l => exact absurd (h x List.mem_cons_self) (by omega)
  | succ N ih =>
    intro l hd h
    have h1 := ih (l := l.erase N) (hd.erase N) fun x hx => by
      have h2 := h x (List.mem_of_mem_erase hx)
      have h3 : x ≠ N := fun he => by
        rw [he, hd.mem_erase_iff] at hx
        exact hx.1 rfl
      omega
    rw [List.length_erase] at h1
    split at h1 <;> omega

/-! ### Numbers for values -/

/-- A number below `2 ^ (2 * W)` for a value of `W` bits. -/
def valueCode (W : Nat) : Value → Nat
  | .exact v => v.toNat
  | .ternary v m => v.toNat + 2 ^ W * m.toNat
  | .lpm v p => v.toNat + 2 ^ W * p.toNat
  | _ => 0

theorem pair_lt {a b x y : Nat} (hx : x < a) (hy : y < b) : x + a * y < a * b := by
  have : a * (y + 1) ≤ a * b := Nat.mul_le_mul_left a hy
  rw [Nat.mul_add] at this
  omega

theorem pair_inj {a x y x' y' : Nat} (hx : x < a) (hx' : x' < a) (h : x + a * y = x' + a * y') : x = x' ∧ y = y' := by
  have h1 : (x + a * y) % a = x := by rw [Nat.add_mul_mod_self_left, Nat.mod_eq_of_lt hx]
  have h2 : (x' + a * y') % a = x' := by rw [Nat.add_mul_mod_self_left, Nat.mod_eq_of_lt hx']
  have h3 : x = x' := by rw [← h1, ← h2, h]
  subst h3
  have h4 : a * y = a * y' := by omega
  exact ⟨rfl, Nat.eq_of_mul_eq_mul_left (by omega) h4⟩

section
variable {W : Nat} {t : Ty} (hs : SymSupported t) (hw : OfWidth W t)

include hs hw in
theorem valueCode_lt {v : Value} (hv : WellFormed W t v) : valueCode W v < 2 ^ (2 * W) := by
  have c := two_pow_cast W
  have e : 2 ^ (2 * W) = 2 ^ W * 2 ^ W := by rw [Nat.two_mul, Nat.pow_add]
  have pos := Nat.two_pow_pos W
  cases hw with
  | bit => cases hs
  | range => cases hs
  | exact =>
    cases v <;> simp only [WellFormed] at hv
    rename_i v
    have : valueCode W (.exact v) + 2 ^ W * 0 < 2 ^ W * 2 ^ W := pair_lt (by simp only [valueCode]; omega) pos
    rw [e]; simpa using this
  | ternary =>
    cases v <;> simp only [WellFormed] at hv
    rename_i v m
    have := Nat.and_le_right (n := v.toNat) (m := m.toNat)
    rw [e]; exact pair_lt (by omega) (by omega)
  | optional =>
    cases v <;> simp only [WellFormed] at hv
    rw [e]; exact pair_lt (by omega) (by omega)
  | lpm =>
    cases v <;> simp only [WellFormed] at hv
    have := Nat.lt_two_pow_self (n := W)
    rw [e]; exact pair_lt (by omega) (by omega)

include hs hw in
theorem valueCode_inj {v v' : Value} (hv : WellFormed W t v) (hv' : WellFormed W t v') (h : valueCode W v = valueCode W v') :
    v = v' := by
  have c := two_pow_cast W
  cases hw with
  | bit => cases hs
  | range => cases hs
  | exact =>
    cases v <;> simp only [WellFormed] at hv
    cases v' <;> simp only [WellFormed] at hv'
    simp only [valueCode] at h
    congr 1
    omega
  | ternary =>
    cases v <;> simp only [WellFormed] at hv
    cases v' <;> simp only [WellFormed] at hv'
    rename_i v m v' m'
    have := Nat.and_le_right (n := v.toNat) (m := m.toNat)
    have := Nat.and_le_right (n := v'.toNat) (m := m'.toNat)
    obtain ⟨h1, h2⟩ := pair_inj (by omega) (by omega) h
    congr 1 <;> omega
  | optional =>
    cases v <;> simp only [WellFormed] at hv
    cases v' <;> simp only [WellFormed] at hv'
    have := Nat.two_pow_pos W
    obtain ⟨h1, h2⟩ := pair_inj (by omega) (by omega) h
    congr 1 <;> omega
  | lpm =>
    cases v <;> simp only [WellFormed] at hv
    cases v' <;> simp only [WellFormed] at hv'
    obtain ⟨h1, h2⟩ := pair_inj (by omega) (by omega) h
    congr 1 <;> omega

end

/-! ### Numbers for entries -/

/-- The width of a type. -/
def tyBits : Ty → Nat
  | .fixedUnsigned w | .exact w | .ternary w | .lpm w | .range w | .optionalMatch w => w.toNat
  | _ => 0

theorem ofWidth_bits {W : Nat} {t : Ty} (h : OfWidth W t) : tyBits t = W := by
  cases h <;> simp [tyBits]

open Classical in
/-- The number for the value of a key of an entry. -/
noncomputable def keyCode (e : RtEntry) (ki : VarInfo) : Nat :=
  if h : ∃ v, KeyValue e ki v then valueCode (tyBits ki.ty) h.choose else 0

/-- The numbers for several keys as one. -/
noncomputable def keysCode (e : RtEntry) : List VarInfo → Nat
  | [] => 0
  | ki :: l => keyCode e ki + 2 ^ (2 * tyBits ki.ty) * keysCode e l

theorem keysCode_lt {e : RtEntry} {l : List VarInfo} (h : ∀ ki ∈ l, keyCode e ki < 2 ^ (2 * tyBits ki.ty)) :
    keysCode e l < 2 ^ (2 * (l.map fun ki => tyBits ki.ty).sum) := by
  induction l with
  | nil => simp [keysCode]
  | cons ki l ih =>
    simp only [keysCode, List.map_cons, List.sum_cons, Nat.mul_add, Nat.pow_add]
    exact pair_lt (h ki List.mem_cons_self) (ih fun k hk => h k (List.mem_cons_of_mem _ hk))

theorem keysCode_inj {e o : RtEntry} {l : List VarInfo} (he : ∀ ki ∈ l, keyCode e ki < 2 ^ (2 * tyBits ki.ty))
    (ho : ∀ ki ∈ l, keyCode o ki < 2 ^ (2 * tyBits ki.ty)) (h : keysCode e l = keysCode o l) :
    ∀ ki ∈ l, keyCode e ki = keyCode o ki := by
  induction l with
  | nil => nofun
  | cons ki l ih =>
    obtain ⟨h1, h2⟩ := pair_inj (he ki List.mem_cons_self) (ho ki List.mem_cons_self) h
    intro k hk
    rcases List.mem_cons.1 hk with rfl | hk
    · exact h1
    · exact ih (fun k hk => he k (List.mem_cons_of_mem _ hk)) (fun k hk => ho k (List.mem_cons_of_mem _ hk)) h2 k hk

/-- The number for an entry. -/
noncomputable def entryCode (vs : List VarInfo) (skip : Str → Bool) (e : RtEntry) : Nat :=
  e.priority.toNat + 2 ^ 31 * keysCode e (vs.filter fun ki => !skip ki.name)

section
variable {vs : List VarInfo} {skip : Str → Bool} (hd : Distinct vs)
  (hsup : ∀ ki ∈ vs, skip ki.name = true ∨ SymSupported ki.ty)

include hsup in
theorem supported_of {ki : VarInfo} (hki : ki ∈ vs) (hsk : skip ki.name = false) : SymSupported ki.ty := by
  rcases hsup ki hki with h | h
  · rw [hsk] at h; cases h
  · exact h

theorem keyCode_of {e : RtEntry} (fe : EntryFits vs e) {ki : VarInfo} {v : Value} (hv : KeyValue e ki v) :
    keyCode e ki = valueCode (tyBits ki.ty) v := by
  have hx : ∃ v, KeyValue e ki v := ⟨v, hv⟩
  rw [keyCode, dif_pos hx, keyValue_once fe.once hv hx.choose_spec]

include hd hsup in
theorem keyCode_lt {e : RtEntry} (ce : CanonicalOver vs skip e) (fe : EntryFits vs e) :
    ∀ ki ∈ vs.filter fun ki => !skip ki.name, keyCode e ki < 2 ^ (2 * tyBits ki.ty) := by
  intro ki hki
  simp only [List.mem_filter, Bool.not_eq_true'] at hki
  obtain ⟨hki, hsk⟩ := hki
  obtain ⟨v, hv⟩ := hasValue hd.1 fe hki
  obtain ⟨W, h1, h2⟩ := canonical_values hd hsup ce hki hsk hv
  rw [keyCode_of fe hv, ofWidth_bits h1]
  exact valueCode_lt (supported_of hsup hki hsk) h1 h2

theorem canonical_priority {e : RtEntry} (ce : CanonicalOver vs skip e) : 0 ≤ e.priority ∧ e.priority < 2 ^ 31 := by
  rcases ce.priority with ⟨_, h1, h2⟩ | ⟨_, h1⟩ <;> omega

theorem sum_filter_le (l : List VarInfo) (q : VarInfo → Bool) :
    ((l.filter q).map fun ki => tyBits ki.ty).sum ≤ (l.map fun ki => tyBits ki.ty).sum := by
  induction l with
  | nil => simp
  | cons k l ih =>
    rw [List.filter_cons]
    split <;> simp only [List.map_cons, List.sum_cons] <;> omega

include hd hsup in
theorem entryCode_lt {e : RtEntry} (ce : CanonicalOver vs skip e) (fe : EntryFits vs e) :
    entryCode vs skip e < 2 ^ (31 + 2 * (vs.map fun ki => tyBits ki.ty).sum) := by
  have h1 := keysCode_lt (keyCode_lt hd hsup ce fe)
  obtain ⟨h2, h3⟩ := canonical_priority ce
  have h4 := pair_lt (a := 2 ^ 31) (x := e.priority.toNat) (by omega) h1
  rw [← Nat.pow_add] at h4
  exact Nat.lt_of_lt_of_le h4 (Nat.pow_le_pow_right (by omega) (by have := sum_filter_le vs fun ki => !skip ki.name; omega))

include hd hsup in
theorem entryCode_inj {e o : RtEntry} (ce : CanonicalOver vs skip e) (fe : EntryFits vs e) (co : CanonicalOver vs skip o)
    (fo : EntryFits vs o) (hid : e.tableId = o.tableId) (h : entryCode vs skip e = entryCode vs skip o) : SameUpToOrder e o := by
  obtain ⟨p1, p2⟩ := canonical_priority ce
  obtain ⟨p3, p4⟩ := canonical_priority co
  obtain ⟨h1, h2⟩ := pair_inj (a := 2 ^ 31) (by omega) (by omega) h
  have h3 := keysCode_inj (keyCode_lt hd hsup ce fe) (keyCode_lt hd hsup co fo) h2
  have h4 : ∀ ki ∈ vs, skip ki.name = false → ∀ v, KeyValue e ki v ↔ KeyValue o ki v := by
    intro ki hki hsk v
    obtain ⟨x, hx⟩ := hasValue hd.1 fe hki
    obtain ⟨y, hy⟩ := hasValue hd.1 fo hki
    obtain ⟨W, g1, g2⟩ := canonical_values hd hsup ce hki hsk hx
    obtain ⟨W', g3, g4⟩ := canonical_values hd hsup co hki hsk hy
    cases ofWidth_unique g1 g3
    have h5 := h3 ki (by simp [hki, hsk])
    rw [keyCode_of fe hx, keyCode_of fo hy, ofWidth_bits g1] at h5
    cases valueCode_inj (supported_of hsup hki hsk) g1 g2 g4 h5
    constructor
    · intro h6; cases keyValue_once fe.once hx h6; exact hy
    · intro h6; cases keyValue_once fo.once hy h6; exact hx
  refine ⟨hid, (List.perm_ext_iff_of_nodup (nodup_of_fieldIds ce.once) (nodup_of_fieldIds co.once)).2 fun m => ⟨?_, ?_⟩, by omega⟩
  · exact canonical_subset hd hsup ce co (fun ki hki hsk v => (h4 ki hki hsk v).1) m
  · exact canonical_subset hd hsup co ce (fun ki hki hsk v => (h4 ki hki hsk v).2) m

end

theorem each_bits {fs : List MatchField} {vs : List VarInfo} (h : Each KeyDecl fs vs) :
    (vs.map fun ki => tyBits ki.ty).sum ≤ (fs.map fun f => f.bitwidth.toNat).sum := by
  induction h with
  | nil => simp
  | @cons f v _ _ hf _ ih =>
    have : tyBits v.ty ≤ f.bitwidth.toNat := by cases hf <;> simp [tyBits]
    simp only [List.map_cons, List.sum_cons]
    omega

section
variable {sys : Sys} {p : P4Info} {ci : ConstraintInfo} (h : p4ToConstraintInfo sys p = .ok ci) {d : TableDecl}
  (hd : d ∈ p.tables) {ti : TableInfo} (hti : lookup d.preamble.id ci.tables = some ti) {skip : Str → Bool}
  (hs : Solvable d skip) {z : Z3Oracle} (hz : z.Sound)

include h hd hs in
/-- There are finitely many entries in canonical form. -/
theorem canonical_finite (hsup : AllSupported d skip) {l : List RtEntry} (hl : ∀ e ∈ l, CanonicalFor d skip e)
    (hp : l.Pairwise fun a b => ¬ SameUpToOrder a b) : l.length ≤ 2 ^ (31 + 2 * keyBits d) := by
  obtain ⟨vs, _, hk, hdis, _⟩ := (p4ToConstraintInfo_succeeds.1 ⟨ci, h⟩).2.2.1 d hd
  have over : ∀ e ∈ l, e.tableId = d.preamble.id ∧ CanonicalOver vs skip e ∧ EntryFits vs e := by
    intro e he
    obtain ⟨h1, vs', hk', h2⟩ := hl e he
    cases keys_same hk hk'
    exact ⟨h1, h2, canonical_fits h2 (hs.omittable vs hk) (hsup vs hk)⟩
  have h1 : (l.map (entryCode vs skip)).Nodup := by
    refine List.pairwise_map.2 (hp.imp_of_mem fun {a b} ha hb hne heq => hne ?_)
    obtain ⟨a1, a2, a3⟩ := over a ha
    obtain ⟨b1, b2, b3⟩ := over b hb
    exact entryCode_inj hdis (hsup vs hk) a2 a3 b2 b3 (a1.trans b1.symm) heq
  have h2 := nodup_length_le (N := 2 ^ (31 + 2 * (vs.map fun ki => tyBits ki.ty).sum)) h1 (by
    intro x hx
    obtain ⟨e, he, rfl⟩ := List.mem_map.1 hx
    obtain ⟨_, e2, e3⟩ := over e he
    exact entryCode_lt hdis (hsup vs hk) e2 e3)
  rw [List.length_map] at h2
  exact Nat.le_trans h2 (Nat.pow_le_pow_right (by omega) (by have := each_bits hk; unfold keyBits; omega))

include h hd hti in
theorem excludes_cons {text : Str} {e : RtEntry} (hx : Excludes sys.inetPton6 d skip text e) {texts : List Str} (o : RtEntry) :
    SignedSolution sys.inetPton6 d skip (text :: texts) o ↔ SignedSolution sys.inetPton6 d skip texts o ∧ ¬ SameUpToOrder o e := by
  obtain ⟨se, hsay, _, hiff⟩ := hx
  constructor
  · intro ho
    obtain ⟨se', h1, h2⟩ := ho.texts _ List.mem_cons_self
    cases textSays_unique h hd hti hsay h1
    exact ⟨signedSolution_mono (fun t ht => List.mem_cons_of_mem _ ht) ho, (hiff o ho.canonical).1 h2⟩
  · rintro ⟨ho, h1⟩
    refine ⟨ho.canonical, ho.table, fun t ht => ?_⟩
    rcases List.mem_cons.1 ht with rfl | ht
    · exact ⟨se, hsay, (hiff o ho.canonical).2 h1⟩
    · exact ho.texts t ht

include h hd hti hs hz in
/-- After an enumeration, the solutions are those not enumerated. -/
theorem enumeration_run {s s' : Solver} {texts : List Str} (hr : SolverRun z sys ti skip s texts) {l : List RtEntry}
    (hl : Enumeration z sys d skip s l s') : ∃ texts', SolverRun z sys ti skip s' texts' ∧
      (∀ o, SignedSolution sys.inetPton6 d skip texts' o ↔
        SignedSolution sys.inetPton6 d skip texts o ∧ ∀ e ∈ l, ¬ SameUpToOrder o e) ∧
      (∀ e ∈ l, SignedSolution sys.inetPton6 d skip texts e) ∧ l.Pairwise fun a b => ¬ SameUpToOrder a b := by
  induction hl with
  | start => exact ⟨texts, hr, by simp, nofun, .nil⟩
  | next _ hc hx ha ih =>
    obtain ⟨texts', h1, h2, h3, h4⟩ := ih
    have h5 := (signed_concretize_solves h hd hti hs hz h1 hc).1
    have h6 := (h2 _).1 h5
    refine ⟨_, .accepted (.concretize h1 hc) ha, fun o => ?_, ?_, .cons h6.2 h4⟩
    · rw [excludes_cons h hd hti hx, h2]
      simp only [List.mem_cons, forall_eq_or_imp]
      grind
    · intro e he
      rcases List.mem_cons.1 he with rfl | he
      · exact h6.1
      · exact h3 e he

include h hd hti hs in
/-- A text that excludes the entry. -/
theorem excludes_exists {s : Solver} {texts : List Str} (hr : SolverRun z sys ti skip s texts) (hn : KeysNameable d skip)
    {e : RtEntry} (hc : CanonicalFor d skip e) : ∃ text, Excludes sys.inetPton6 d skip text e := by
  obtain ⟨vs, se, hk, hp, _, hiff⟩ := entry_pinned (z := z) h hd hti hs hn hc (run_supported h hd hti hr)
  have hsay := written_says (pton := sys.inetPton6) hk hp.writable hp.typed
  have hsay' := written_says (pton := sys.inetPton6) (s := .not se) hk hp.writable (.not hp.typed)
  refine ⟨_, _, hsay', ⟨vs, hk, hp.names⟩, fun o ho => ?_⟩
  rw [signed_not h hd hti hs hr hsay ⟨vs, hk, hp.names⟩ ho, hiff s texts hr o ho]

end

end P4C
