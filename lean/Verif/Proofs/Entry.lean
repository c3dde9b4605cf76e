import Verif.Spec.Entry
import Verif.Proofs.Maps

/-
Parsing of table entries and action invocations.
-/

namespace P4C

open Spec

theorem foldl_import (bs : Bytes) (acc : Nat) :
    bs.foldl (fun acc b => acc * 256 + b.toNat) acc = acc * 256 ^ bs.length + bytesNat bs := by
  induction bs generalizing acc with
  | nil => simp [bytesNat]
  | cons b bs ih =>
    simp only [List.foldl_cons, ih, bytesNat, List.length_cons, Nat.pow_succ]
    rw [Nat.add_mul, Nat.mul_assoc, Nat.mul_comm 256, Nat.add_assoc]

theorem mpzImport_eq (bs : Bytes) : mpzImport bs = bytesNat bs := by
  unfold mpzImport; rw [foldl_import]; simp

theorem bytesNat_eraseLeadingZeros (bs : Bytes) : bytesNat (eraseLeadingZeros bs) = bytesNat bs := by
  induction bs with
  | nil => rfl
  | cons b bs ih =>
    unfold eraseLeadingZeros at ih ⊢
    rw [List.dropWhile_cons]
    split
    · rename_i h
      simp at h
      subst h
      rw [ih]
      simp [bytesNat]
    · rfl

theorem parseP4RTInteger_eq (bs : Bytes) : parseP4RTInteger bs = bytesNat bs := by
  unfold parseP4RTInteger; rw [mpzImport_eq, bytesNat_eraseLeadingZeros]

theorem maxValue_ok {w m : Int} : maxValueForBitwidth w = .ok m ↔ 0 ≤ w ∧ m = 2 ^ w.toNat - 1 := by
  unfold maxValueForBitwidth shl1
  split
  · rename_i h; simp; omega
  · rename_i h
    simp
    constructor
    · rintro rfl; exact ⟨by omega, rfl⟩
    · rintro ⟨_, rfl⟩; rfl

theorem matchDenotes_iff {t : Ty} {m : MatchVal} {v : Value} : MatchDenotes t m v ↔
    (match m, t with
     | .exact b, .exact _ => v = .exact (bytesNat b)
     | .ternary b c, .ternary _ => v = .ternary (bytesNat b) (bytesNat c)
     | .lpm b p, .lpm _ => v = .lpm (bytesNat b) p
     | .range b c, .range _ => v = .range (bytesNat b) (bytesNat c)
     | .optional b, .optionalMatch w => 0 ≤ w ∧ v = .ternary (bytesNat b) (2 ^ w.toNat - 1)
     | _, _ => False) := by
  constructor
  · intro h; cases h <;> simp
  · intro h
    cases m <;> cases t <;> simp at h <;> try (subst h; constructor)
    obtain ⟨hw, rfl⟩ := h
    rename_i b w
    obtain ⟨n, rfl⟩ := Int.eq_ofNat_of_zero_le hw
    exact .optional n b

theorem matchDenotes_unique {t : Ty} {m : MatchVal} {v w : Value} (h : MatchDenotes t m v)
    (h' : MatchDenotes t m w) : v = w := by
  rw [matchDenotes_iff] at h h'
  cases m <;> cases t <;> simp_all

theorem parseKey_ok {fm : FieldMatch} {ti : TableInfo} {n : Str} {v : Value} :
    parseKey fm ti = .ok (n, v) ↔
    ∃ ki, lookup fm.fieldId ti.keysById = some ki ∧ n = ki.name ∧ MatchDenotes ki.ty fm.val v := by
  unfold parseKey
  cases hl : lookup fm.fieldId ti.keysById with
  | none => simp
  | some ki =>
    simp only [Option.some.injEq, exists_eq_left', matchDenotes_iff]
    cases fm.val <;> cases ki.ty <;>
      simp only [parseP4RTInteger_eq, Res.bind_eq_ok, maxValue_ok, Res.ok.injEq, Prod.mk.injEq, reduceCtorEq,
        and_false]
    case optional.optionalMatch =>
      constructor
      · rintro ⟨m, ⟨h1, rfl⟩, rfl, rfl⟩; exact ⟨rfl, h1, rfl⟩
      · rintro ⟨rfl, h1, rfl⟩; exact ⟨_, ⟨h1, rfl⟩, rfl, rfl⟩
    all_goals constructor <;> (rintro ⟨rfl, rfl⟩; exact ⟨rfl, rfl⟩)

theorem parseMatches_ok {ti : TableInfo} {ms : List FieldMatch} {acc keys : List (Str × Value)} :
    parseMatches ti acc ms = .ok keys ↔
    ∃ ps : List (Str × Value), ms.map (fun m => parseKey m ti) = ps.map Res.ok ∧
      (ps.map Prod.fst).Nodup ∧ (∀ p ∈ ps, hasKey p.1 acc = false) ∧ keys = ps.reverse ++ acc := by
  induction ms generalizing acc with
  | nil =>
    simp only [parseMatches, List.map_nil]
    constructor
    · intro h; cases h; exact ⟨[], by simp⟩
    · rintro ⟨ps, h1, _, _, h4⟩
      have : ps = [] := by cases ps <;> simp at h1 ⊢
      subst this
      simp [h4]
  | cons m ms ih =>
    simp only [parseMatches, Res.bind_eq_ok, List.map_cons]
    constructor
    · rintro ⟨⟨n, v⟩, hp, h⟩
      dsimp only at h
      split at h
      · cases h
      · rename_i acc' hacc
        rw [insertNew_some] at hacc
        obtain ⟨hk, rfl⟩ := hacc
        obtain ⟨ps, h1, h2, h3, rfl⟩ := ih.1 h
        refine ⟨(n, v) :: ps, by simp [hp, h1], ?_, ?_, by simp⟩
        · simp only [List.map_cons, List.nodup_cons]
          refine ⟨?_, h2⟩
          intro hmem
          obtain ⟨p, hp, hpn⟩ := List.mem_map.1 hmem
          have := h3 p hp
          rw [hasKey_false] at this
          exact this v (by rw [hpn]; simp)
        · intro p hp
          rcases List.mem_cons.1 hp with rfl | hp
          · exact hk
          · have := h3 p hp
            rw [hasKey_false] at this ⊢
            intro a ha
            exact this a (List.mem_cons_of_mem _ ha)
    · rintro ⟨ps, h1, h2, h3, rfl⟩
      cases ps with
      | nil => simp at h1
      | cons p ps =>
        obtain ⟨n, v⟩ := p
        simp only [List.map_cons, List.cons.injEq] at h1
        refine ⟨(n, v), h1.1, ?_⟩
        dsimp only
        have hk := h3 (n, v) (by simp)
        rw [insertNew_some.2 ⟨hk, rfl⟩]
        simp only [List.map_cons, List.nodup_cons] at h2
        refine ih.2 ⟨ps, h1.2, h2.2, ?_, by simp⟩
        intro p hp
        rw [hasKey_false]
        intro a ha
        rcases List.mem_cons.1 ha with he | ha
        · cases he
          exact h2.1 (List.mem_map.2 ⟨p, hp, rfl⟩)
        · exact hasKey_false.1 (h3 p (List.mem_cons_of_mem _ hp)) a ha

theorem defaultValue_ok {ki : VarInfo} {v : Value} : defaultValue ki = .ok v ↔ WildcardOf ki.ty v := by
  unfold defaultValue
  constructor
  · intro h
    cases ht : ki.ty <;> simp [ht, Res.bind_eq_ok, maxValue_ok] at h <;> try (subst h; constructor)
    obtain ⟨m, ⟨hw, rfl⟩, rfl⟩ := h
    rename_i w
    obtain ⟨n, rfl⟩ := Int.eq_ofNat_of_zero_le hw
    exact .range n
  · intro h
    cases h' : ki.ty <;> rw [h'] at h <;> cases h <;> simp only [Res.bind_eq_ok, maxValue_ok]
    exact ⟨_, ⟨Int.natCast_nonneg _, rfl⟩, by simp⟩

theorem addDefaults_ok {ks : List (Str × VarInfo)} (hn : (ks.map Prod.fst).Nodup)
    {acc keys : List (Str × Value)} :
    addDefaults acc ks = .ok keys ↔
    ∃ ds : List (Str × Value),
      (ks.filter fun k => !hasKey k.1 acc).map (fun k => (fun v => (k.1, v)) <$> defaultValue k.2) =
        ds.map Res.ok ∧ keys = ds.reverse ++ acc := by
  induction ks generalizing acc with
  | nil =>
    simp only [addDefaults, List.filter_nil, List.map_nil]
    constructor
    · intro h; cases h; exact ⟨[], by simp⟩
    · rintro ⟨ds, h1, h2⟩
      have : ds = [] := by cases ds <;> simp at h1 ⊢
      subst this
      simp [h2]
  | cons k ks ih =>
    obtain ⟨n, ki⟩ := k
    simp only [List.map_cons, List.nodup_cons] at hn
    simp only [addDefaults]
    split
    · rename_i hk
      rw [ih hn.2]
      simp [hk]
    · rename_i hk
      simp only [Bool.not_eq_true] at hk
      have hf : ∀ v, (ks.filter fun k => !hasKey k.1 ((n, v) :: acc)) =
          ks.filter fun k => !hasKey k.1 acc := by
        intro v
        apply List.filter_congr
        intro k hkm
        have hne : n ≠ k.1 := by
          rintro rfl
          exact hn.1 (List.mem_map.2 ⟨k, hkm, rfl⟩)
        simp [hasKey, lookup, hne]
      rw [Res.bind_eq_ok]
      simp only [List.filter_cons, hk, Bool.not_false, if_true, List.map_cons]
      constructor
      · rintro ⟨v, hv, h⟩
        obtain ⟨ds, h1, rfl⟩ := (ih hn.2).1 h
        rw [hf] at h1
        refine ⟨(n, v) :: ds, ?_, by simp⟩
        rw [List.map_cons, h1, hv]; rfl
      · rintro ⟨ds, h1, rfl⟩
        cases ds with
        | nil => simp at h1
        | cons d ds =>
          rw [List.map_cons] at h1
          obtain ⟨h1, h2⟩ := List.cons.inj h1
          rw [Res.map_eq_ok] at h1
          obtain ⟨v, hv, rfl⟩ := h1
          refine ⟨v, hv, (ih hn.2).2 ⟨ds, ?_, by simp⟩⟩
          rw [hf]; exact h2

theorem map_ok_mem {ι α : Type} {f : ι → Res α} {l : List ι} {ps : List α}
    (h : l.map f = ps.map Res.ok) :
    (∀ x ∈ l, ∃ p ∈ ps, f x = .ok p) ∧ (∀ p ∈ ps, ∃ x ∈ l, f x = .ok p) := by
  induction l generalizing ps with
  | nil => cases ps <;> simp at h ⊢
  | cons x l ih =>
    cases ps with
    | nil => simp at h
    | cons p ps =>
      simp only [List.map_cons, List.cons.injEq] at h
      obtain ⟨i1, i2⟩ := ih h.2
      constructor
      · intro y hy
        rcases List.mem_cons.1 hy with rfl | hy
        · exact ⟨p, by simp, h.1⟩
        · obtain ⟨q, hq, he⟩ := i1 y hy
          exact ⟨q, List.mem_cons_of_mem _ hq, he⟩
      · intro q hq
        rcases List.mem_cons.1 hq with rfl | hq
        · exact ⟨x, by simp, h.1⟩
        · obtain ⟨y, hy, he⟩ := i2 q hq
          exact ⟨y, List.mem_cons_of_mem _ hy, he⟩

theorem map_ok_exists {ι α : Type} {f : ι → Res α} {l : List ι} (h : ∀ x ∈ l, ∃ p, f x = .ok p) :
    ∃ ps : List α, l.map f = ps.map Res.ok := by
  induction l with
  | nil => exact ⟨[], rfl⟩
  | cons x l ih =>
    obtain ⟨p, hp⟩ := h x (by simp)
    obtain ⟨ps, hps⟩ := ih fun y hy => h y (List.mem_cons_of_mem _ hy)
    exact ⟨p :: ps, by simp [hp, hps]⟩

/-- The key with a given id, in a well-formed table. -/
theorem Spec.TableWF.lookup_id {ti : TableInfo} (h : TableWF ti) {id : Nat} {ki : VarInfo} :
    lookup id ti.keysById = some ki ↔ (id, ki) ∈ ti.keysById := lookup_iff_mem h.nodupId

theorem Spec.TableWF.lookup_name {ti : TableInfo} (h : TableWF ti) {n : Str} {ki : VarInfo} :
    lookup n ti.keysByName = some ki ↔ (n, ki) ∈ ti.keysByName := lookup_iff_mem h.nodupName

/-- Keys with the same name are the same. -/
theorem Spec.TableWF.name_inj {ti : TableInfo} (h : TableWF ti) {a b : Nat} {k k' : VarInfo}
    (h1 : (a, k) ∈ ti.keysById) (h2 : (b, k') ∈ ti.keysById) (hn : k.name = k'.name) : k = k' ∧ a = b := by
  have e1 := (h.byId _ _ h1).2
  have e2 := (h.byId _ _ h2).2
  rw [hn] at e1
  have := nodup_keys_unique h.nodupName e1 e2
  subst this
  exact ⟨rfl, by rw [← (h.byId _ _ h1).1, ← (h.byId _ _ h2).1]⟩

/-- Names of parsed matches are distinct iff their ids are. -/
theorem parsed_nodup {ti : TableInfo} (h : TableWF ti) {ms : List FieldMatch} {ps : List (Str × Value)}
    (hp : ms.map (fun m => parseKey m ti) = ps.map Res.ok) :
    (ps.map Prod.fst).Nodup ↔ (ms.map FieldMatch.fieldId).Nodup := by
  induction ms generalizing ps with
  | nil => cases ps <;> simp at hp ⊢
  | cons m ms ih =>
    cases ps with
    | nil => simp at hp
    | cons p ps =>
      simp only [List.map_cons, List.cons.injEq] at hp
      obtain ⟨hm, hp⟩ := hp
      simp only [List.map_cons, List.nodup_cons, ih hp]
      obtain ⟨i1, i2⟩ := map_ok_mem hp
      obtain ⟨n, v⟩ := p
      obtain ⟨ki, hl, rfl, _⟩ := parseKey_ok.1 hm
      have hkm := h.lookup_id.1 hl
      have : (ki.name ∈ ps.map Prod.fst) ↔ (m.fieldId ∈ ms.map FieldMatch.fieldId) := by
        constructor
        · intro hmem
          obtain ⟨⟨n', v'⟩, hq, rfl⟩ := List.mem_map.1 hmem
          obtain ⟨m', hm', he⟩ := i2 _ hq
          obtain ⟨ki', hl', hn, _⟩ := parseKey_ok.1 he
          obtain ⟨_, hid⟩ := h.name_inj hkm (h.lookup_id.1 hl') hn
          exact List.mem_map.2 ⟨m', hm', hid.symm⟩
        · intro hmem
          obtain ⟨m', hm', hid⟩ := List.mem_map.1 hmem
          obtain ⟨⟨n', v'⟩, hq, he⟩ := i1 _ hm'
          obtain ⟨ki', hl', hn, _⟩ := parseKey_ok.1 he
          rw [hid, hl] at hl'
          cases hl'
          exact List.mem_map.2 ⟨_, hq, hn⟩
      simp only [this]

/-- `ParseTableEntry` accepts exactly the consistent entries. -/
theorem parseTableEntry_iff {ti : TableInfo} (h : TableWF ti) (entry : RtEntry) :
    (∃ ctx, parseTableEntry entry ti = .ok ctx) ↔ EntryOk ti entry := by
  have main : (∃ ctx, parseTableEntry entry ti = .ok ctx) ↔
      ∃ ps ds : List (Str × Value), entry.matches_.map (fun m => parseKey m ti) = ps.map Res.ok ∧
        (ps.map Prod.fst).Nodup ∧
        (ti.keysByName.filter fun k => !hasKey k.1 ps.reverse).map
          (fun k => (fun v => (k.1, v)) <$> defaultValue k.2) = ds.map Res.ok := by
    unfold parseTableEntry
    constructor
    · rintro ⟨ctx, hc⟩
      rw [Res.bind_eq_ok] at hc
      obtain ⟨k1, hk1, hc⟩ := hc
      rw [Res.bind_eq_ok] at hc
      obtain ⟨k2, hk2, _⟩ := hc
      obtain ⟨ps, h1, h2, _, rfl⟩ := parseMatches_ok.1 hk1
      obtain ⟨ds, h3, _⟩ := (addDefaults_ok h.nodupName).1 hk2
      exact ⟨ps, ds, h1, h2, by simpa using h3⟩
    · rintro ⟨ps, ds, h1, h2, h3⟩
      have hm : parseMatches ti [] entry.matches_ = .ok ps.reverse :=
        parseMatches_ok.2 ⟨ps, h1, h2, by simp [hasKey, lookup], by simp⟩
      have hd := (addDefaults_ok h.nodupName (acc := ps.reverse)).2 ⟨ds, h3, rfl⟩
      exact ⟨_, by rw [hm, Res.ok_bind, hd, Res.ok_bind]⟩
  rw [main]
  constructor
  · rintro ⟨ps, ds, h1, h2, h3⟩
    obtain ⟨i1, i2⟩ := map_ok_mem h1
    obtain ⟨j1, _⟩ := map_ok_mem h3
    refine ⟨?_, (parsed_nodup h h1).1 h2, ?_⟩
    · intro m hm
      obtain ⟨⟨n, v⟩, _, he⟩ := i1 m hm
      obtain ⟨ki, hl, _, hd⟩ := parseKey_ok.1 he
      exact ⟨ki, h.lookup_id.1 hl, v, hd⟩
    · intro id ki hki
      obtain ⟨rfl, hkn⟩ := h.byId _ _ hki
      cases hk : hasKey ki.name ps.reverse with
      | false =>
        right
        obtain ⟨⟨n, v⟩, _, he⟩ := j1 (ki.name, ki) (List.mem_filter.2 ⟨hkn, by simp [hk]⟩)
        rw [Res.map_eq_ok] at he
        obtain ⟨v', hv', _⟩ := he
        exact ⟨v', defaultValue_ok.1 hv'⟩
      | true =>
        left
        rw [hasKey_iff] at hk
        obtain ⟨v, hv⟩ := hk
        obtain ⟨m, hm, he⟩ := i2 _ (List.mem_reverse.1 hv)
        obtain ⟨ki', hl, hn, _⟩ := parseKey_ok.1 he
        obtain ⟨_, hid⟩ := h.name_inj hki (h.lookup_id.1 hl) hn
        exact ⟨m, hm, hid.symm⟩
  · intro hok
    obtain ⟨ps, h1⟩ := map_ok_exists (f := fun m => parseKey m ti) (l := entry.matches_) (by
      intro m hm
      obtain ⟨ki, hki, v, hv⟩ := hok.known m hm
      exact ⟨(ki.name, v), parseKey_ok.2 ⟨ki, h.lookup_id.2 hki, rfl, hv⟩⟩)
    obtain ⟨i1, i2⟩ := map_ok_mem h1
    obtain ⟨ds, h3⟩ := map_ok_exists
      (f := fun k : Str × VarInfo => (fun v => (k.1, v)) <$> defaultValue k.2)
      (l := ti.keysByName.filter fun k => !hasKey k.1 ps.reverse) (by
        rintro ⟨n, ki⟩ hk
        obtain ⟨hk, hnk⟩ := List.mem_filter.1 hk
        obtain ⟨rfl, hki⟩ := h.byName _ _ hk
        rcases hok.complete _ _ hki with ⟨m, hm, hid⟩ | ⟨v, hv⟩
        · exfalso
          obtain ⟨⟨n, v⟩, hq, he⟩ := i1 m hm
          obtain ⟨ki', hl, hn, _⟩ := parseKey_ok.1 he
          rw [hid, h.lookup_id.2 hki] at hl
          cases hl
          subst hn
          simp only [Bool.not_eq_true', hasKey_false] at hnk
          exact hnk v (List.mem_reverse.2 hq)
        · exact ⟨(ki.name, v), Res.map_eq_ok.2 ⟨v, defaultValue_ok.2 hv, rfl⟩⟩)
    exact ⟨ps, ds, h1, (parsed_nodup h h1).2 hok.once, h3⟩

/-- What `ParseTableEntry` returns. -/
theorem parseTableEntry_env {ti : TableInfo} (h : TableWF ti) {entry : RtEntry} {ctx : EvalCtx}
    (hc : parseTableEntry entry ti = .ok ctx) : EntryEnv ti entry (envOf ctx) ∧ ctx.src = ti.source ∧
      ∃ keys, ctx.vals = .table ⟨ti.name, entry.priority, keys⟩ ∧ (keys.map Prod.fst).Nodup := by
  unfold parseTableEntry at hc
  rw [Res.bind_eq_ok] at hc
  obtain ⟨k1, hk1, hc⟩ := hc
  rw [Res.bind_eq_ok] at hc
  obtain ⟨k2, hk2, hc⟩ := hc
  cases hc
  obtain ⟨ps, h1, h2, _, rfl⟩ := parseMatches_ok.1 hk1
  simp only [List.append_nil] at hk2
  obtain ⟨ds, h3, rfl⟩ := (addDefaults_ok h.nodupName).1 hk2
  obtain ⟨i1, i2⟩ := map_ok_mem h1
  obtain ⟨j1, j2⟩ := map_ok_mem h3
  have hdn : (ds.map Prod.fst).Nodup := by
    have hsub : (ds.map Prod.fst) = (ti.keysByName.filter fun k => !hasKey k.1 ps.reverse).map Prod.fst := by
      revert h3
      generalize (ti.keysByName.filter fun k => !hasKey k.1 ps.reverse) = l
      intro h3
      clear j1 j2 hk2
      induction l generalizing ds with
      | nil => cases ds <;> simp at h3 ⊢
      | cons k l ih =>
        cases ds with
        | nil => simp at h3
        | cons d ds =>
          rw [List.map_cons, List.map_cons] at h3
          obtain ⟨h3, h4⟩ := List.cons.inj h3
          rw [Res.map_eq_ok] at h3
          obtain ⟨v, _, rfl⟩ := h3
          simp only [List.map_cons]
          rw [ih _ h4]
    rw [hsub]
    exact h.nodupName.sublist (List.filter_sublist.map _)
  have hnd : ((ds.reverse ++ ps.reverse).map Prod.fst).Nodup := by
    rw [List.map_append, List.nodup_append]
    refine ⟨by simpa using (List.reverse_perm _).nodup_iff.2 hdn,
      by simpa using (List.reverse_perm _).nodup_iff.2 h2, ?_⟩
    intro a ha b hb hab
    subst hab
    obtain ⟨⟨n, v⟩, hd, rfl⟩ := List.mem_map.1 ha
    obtain ⟨⟨n', v'⟩, hp, hn⟩ := List.mem_map.1 hb
    obtain ⟨⟨n2, ki⟩, hk, he⟩ := j2 _ (List.mem_reverse.1 hd)
    obtain ⟨_, hnk⟩ := List.mem_filter.1 hk
    rw [Res.map_eq_ok] at he
    obtain ⟨_, _, he⟩ := he
    cases he
    dsimp only at hn
    subst hn
    simp only [Bool.not_eq_true', hasKey_false] at hnk
    exact hnk v' hp
  refine ⟨⟨?_, fun _ => rfl, rfl⟩, rfl, _, rfl, hnd⟩
  intro n v
  show lookup n (ds.reverse ++ ps.reverse) = some v ↔ _
  rw [lookup_iff_mem hnd, List.mem_append, List.mem_reverse, List.mem_reverse]
  constructor
  · rintro (hd | hp)
    · obtain ⟨⟨n2, ki⟩, hk, he⟩ := j2 _ hd
      obtain ⟨hk, hnk⟩ := List.mem_filter.1 hk
      rw [Res.map_eq_ok] at he
      obtain ⟨v', hv', he⟩ := he
      cases he
      refine ⟨ki, hk, .inr ⟨?_, defaultValue_ok.1 hv'⟩⟩
      intro m hm hid
      obtain ⟨⟨n', v''⟩, hq, he⟩ := i1 m hm
      obtain ⟨ki', hl, hn, _⟩ := parseKey_ok.1 he
      obtain ⟨rfl, hki⟩ := h.byName _ _ hk
      rw [hid, h.lookup_id.2 hki] at hl
      cases hl
      subst hn
      simp only [Bool.not_eq_true', hasKey_false] at hnk
      exact hnk _ (List.mem_reverse.2 hq)
    · obtain ⟨m, hm, he⟩ := i2 _ hp
      obtain ⟨ki, hl, rfl, hd⟩ := parseKey_ok.1 he
      have hki := h.lookup_id.1 hl
      obtain ⟨hid, hkn⟩ := h.byId _ _ hki
      exact ⟨ki, hkn, .inl ⟨m, hm, hid.symm, hd⟩⟩
  · rintro ⟨ki, hk, hv⟩
    obtain ⟨rfl, hki⟩ := h.byName _ _ hk
    rcases hv with ⟨m, hm, hid, hd⟩ | ⟨hno, hw⟩
    · right
      obtain ⟨⟨n', v'⟩, hq, he⟩ := i1 m hm
      obtain ⟨ki', hl, hn, hd'⟩ := parseKey_ok.1 he
      rw [hid, h.lookup_id.2 hki] at hl
      cases hl
      subst hn
      rw [matchDenotes_unique hd hd']
      exact hq
    · left
      have hnk : hasKey ki.name ps.reverse = false := by
        rw [hasKey_false]
        intro a ha
        obtain ⟨m, hm, he⟩ := i2 _ (List.mem_reverse.1 ha)
        obtain ⟨ki', hl, hn, _⟩ := parseKey_ok.1 he
        obtain ⟨_, hid⟩ := h.name_inj hki (h.lookup_id.1 hl) hn
        exact hno m hm hid.symm
      obtain ⟨⟨n', v'⟩, hq, he⟩ := j1 (ki.name, ki) (List.mem_filter.2 ⟨hk, by simp [hnk]⟩)
      rw [Res.map_eq_ok] at he
      obtain ⟨v'', hv'', he⟩ := he
      cases he
      rw [defaultValue_ok.2 hw] at hv''
      cases hv''
      exact hq

end P4C
