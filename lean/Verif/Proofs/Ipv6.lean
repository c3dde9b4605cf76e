import Verif.Model.Inet
import Verif.Spec.Ipv6
import Verif.Proofs.Address
import Verif.Proofs.Parse
import Verif.Proofs.IdText

namespace P4C
open Spec

theorem hexDigitValue_of {c : Char} {d : Nat} (h : (c, d) ∈ digits) : hexDigitValue c = some d := by
  have key : ∀ p ∈ digits, hexDigitValue p.1 = some p.2 := by decide
  exact key _ h

theorem char_le {a b : Char} : a ≤ b ↔ a.toNat ≤ b.toNat := Iff.rfl

theorem char_toNat {c : Char} {n : Nat} (h : c.toNat = n) : c = Char.ofNat n := by
  subst h; exact (Char.ofNat_toNat c).symm

theorem hexDigitValue_some {c : Char} {d : Nat} (h : hexDigitValue c = some d) : (c, d) ∈ digits := by
  unfold hexDigitValue at h
  simp only [char_le] at h
  split at h
  · rename_i hc
    injection h with h; subst h
    obtain ⟨h1, h2⟩ := hc
    change 48 ≤ c.toNat at h1
    change c.toNat ≤ 57 at h2
    obtain ⟨n, hn⟩ : ∃ n, c.toNat = n := ⟨_, rfl⟩
    rw [hn] at h1 h2 ⊢
    rw [char_toNat hn]
    clear hn
    have key : ∀ n ∈ List.range' 48 10, (Char.ofNat n, n - 48) ∈ digits := by decide
    exact key n (by rw [List.mem_range'_1]; omega)
  split at h
  · rename_i hc
    injection h with h; subst h
    obtain ⟨h1, h2⟩ := hc
    change 97 ≤ c.toNat at h1
    change c.toNat ≤ 102 at h2
    obtain ⟨n, hn⟩ : ∃ n, c.toNat = n := ⟨_, rfl⟩
    rw [hn] at h1 h2 ⊢
    rw [char_toNat hn]
    clear hn
    have key : ∀ n ∈ List.range' 97 6, (Char.ofNat n, n - 97 + 10) ∈ digits := by decide
    exact key n (by rw [List.mem_range'_1]; omega)
  split at h
  · rename_i hc
    injection h with h; subst h
    obtain ⟨h1, h2⟩ := hc
    change 65 ≤ c.toNat at h1
    change c.toNat ≤ 70 at h2
    obtain ⟨n, hn⟩ : ∃ n, c.toNat = n := ⟨_, rfl⟩
    rw [hn] at h1 h2 ⊢
    rw [char_toNat hn]
    clear hn
    have key : ∀ n ∈ List.range' 65 6, (Char.ofNat n, n - 65 + 10) ∈ digits := by decide
    exact key n (by rw [List.mem_range'_1]; omega)
  · cases h

theorem digits_lt {c : Char} {d : Nat} (h : (c, d) ∈ digits) : d < 16 := by
  have key : ∀ p ∈ digits, p.2 < 16 := by decide
  exact key _ h

/-- Decimal digits. -/
theorem decDigit_of {c : Char} {d : Nat} (h : (c, d) ∈ digits) (hd : d < 10) :
    ('0' ≤ c ∧ c ≤ '9') ∧ c.toNat - 48 = d := by
  have key : ∀ p ∈ digits, p.2 < 10 → ('0' ≤ p.1 ∧ p.1 ≤ '9') ∧ p.1.toNat - 48 = p.2 := by decide
  exact key _ h hd

theorem decDigit_some {c : Char} (h : '0' ≤ c ∧ c ≤ '9') : (c, c.toNat - 48) ∈ digits ∧ c.toNat - 48 < 10 := by
  have := hexDigitValue_some (c := c) (d := c.toNat - 48) (by unfold hexDigitValue; rw [if_pos h])
  refine ⟨this, ?_⟩
  have h2 : c.toNat ≤ 57 := h.2
  omega

/-! ### Dotted notation -/

/-- Bytes in dotted notation. -/
inductive DottedList : Str → List Nat → Prop where
  | one {s : Str} {n : Nat} : DottedByte s n → DottedList s [n]
  | cons {s t : Str} {n : Nat} {ns : List Nat} : DottedByte s n → DottedList t ns → DottedList (s ++ '.' :: t) (n :: ns)

theorem DottedList.length_pos {s : Str} {ns : List Nat} (h : DottedList s ns) : 0 < ns.length := by
  cases h <;> simp

/-- What has been read of the current byte. -/
def Pend4 (pend : Str) (st : Pton4) : Prop :=
  (pend = [] ∧ st.sawDigit = false ∧ st.cur = 0 ∧ st.octets = st.done.length) ∨
  (DottedByte pend st.cur ∧ st.sawDigit = true ∧ st.octets = st.done.length + 1)

theorem numVal_ne {b : Nat} {s : Str} {n : Nat} (h : NumVal b s n) : s ≠ [] := by
  cases h <;> simp

theorem canonical_one {c : Char} {d : Nat} (h : (c, d) ∈ digits) (hd : d < 10) : Canonical [c] d := by
  refine ⟨.one h hd, ?_⟩
  by_cases hc : c = '0'
  · exact .inl (by rw [hc])
  · refine .inr ?_
    intro hp
    rw [List.cons_prefix_cons] at hp
    exact hc hp.1.symm

theorem canonical_grow {s : Str} {n : Nat} (hs : Canonical s n) (hn : n ≠ 0) {c : Char} {d : Nat} (h : (c, d) ∈ digits)
    (hd : d < 10) : Canonical (s ++ [c]) (n * 10 + d) := by
  refine ⟨.snoc hs.1 h hd, .inr ?_⟩
  rcases hs.2 with h0 | h0
  · exfalso
    apply hn
    rw [h0] at hs
    exact numVal_unique hs.1 (.one (by decide) (by decide))
  · intro hp
    apply h0
    cases s with
    | nil => exact absurd rfl (numVal_ne hs.1)
    | cons x xs =>
      rw [List.cons_append, List.cons_prefix_cons] at hp
      rw [List.cons_prefix_cons]
      exact ⟨hp.1, List.nil_prefix⟩

theorem inetPton4_sound : ∀ (src : Str) {pend : Str} {st : Pton4} {q : Bytes}, Pend4 pend st → st.done.length ≤ 3 →
    inetPton4 src st = some q →
    ∃ ns, DottedList (pend ++ src) ns ∧ st.done.length + ns.length = 4 ∧ q = st.done ++ ns.map UInt8.ofNat
  | [], pend, st, q, hp, hl, h => by
    rw [inetPton4] at h
    split at h
    · cases h
    · rename_i ho
      injection h with h
      rcases hp with ⟨_, _, _, h4⟩ | ⟨h1, _, h3⟩
      · omega
      · refine ⟨[st.cur], ?_, ?_, ?_⟩
        · rw [List.append_nil]; exact .one h1
        · simp only [List.length_singleton]; omega
        · exact h.symm
  | ch :: src, pend, st, q, hp, hl, h => by
    rw [inetPton4] at h
    split at h
    · rename_i hc
      obtain ⟨hd, hlt⟩ := decDigit_some hc
      dsimp only at h
      split at h
      · cases h
      split at h
      · cases h
      rename_i h0 h255
      have happ : pend ++ ch :: src = pend ++ [ch] ++ src := by simp
      rw [happ]
      split at h
      · rename_i hs
        rcases hp with ⟨_, h2, _, _⟩ | ⟨h1, h2, h3⟩
        · rw [h2] at hs; cases hs
        · have hz : st.cur ≠ 0 := fun hz => h0 ⟨hs, hz⟩
          exact inetPton4_sound src (st := { st with cur := st.cur * 10 + (ch.toNat - 48) })
            (.inr ⟨⟨canonical_grow h1.1 hz hd hlt, by dsimp only; omega⟩, h2, h3⟩) hl h
      · rename_i hs
        split at h
        · cases h
        · rcases hp with ⟨h1, h2, h3, h4⟩ | ⟨_, h2, _⟩
          · subst h1
            rw [h3] at h h255
            refine inetPton4_sound src (st := { st with cur := 0 * 10 + (ch.toNat - 48), octets := st.octets + 1, sawDigit := true })
              (.inr ⟨⟨?_, by dsimp only; omega⟩, rfl, by dsimp only; omega⟩) hl h
            rw [Nat.zero_mul, Nat.zero_add]
            exact canonical_one hd hlt
          · exact absurd h2 hs
    · split at h
      · rename_i hc
        obtain ⟨rfl, hs⟩ := hc
        split at h
        · cases h
        · rename_i ho
          rcases hp with ⟨_, h2, _, _⟩ | ⟨h1, h2, h3⟩
          · rw [h2] at hs; cases hs
          · obtain ⟨ns, k1, k2, k3⟩ := inetPton4_sound src (pend := [])
              (st := { st with done := st.done ++ [UInt8.ofNat st.cur], cur := 0, sawDigit := false })
              (.inl ⟨rfl, rfl, rfl, by simp [h3]⟩) (by simp; omega) h
            refine ⟨st.cur :: ns, .cons h1 k1, ?_, ?_⟩
            · simp at k2 ⊢; omega
            · rw [k3]; simp
      · cases h

theorem canonical_init {s : Str} {c : Char} {n d : Nat} (hs : NumVal 10 s n) (h : Canonical (s ++ [c]) d) :
    Canonical s n ∧ n ≠ 0 := by
  have h0 : ¬ c!"0" <+: s := by
    intro hp
    rcases h.2 with h1 | h1
    · have h5 := congrArg List.length h1
      have h6 := List.length_pos_iff.2 (numVal_ne hs)
      rw [List.length_append, List.length_singleton] at h5
      have h7 : (c!"0" : Str).length = 1 := rfl
      omega
    · exact h1 (hp.trans (List.prefix_append _ _))
  exact ⟨⟨hs, .inr h0⟩, fun hn => h0 (numVal_zero (hn ▸ hs))⟩

/-- Reading a byte. -/
theorem inetPton4_byte {s : Str} {n : Nat} (h : NumVal 10 s n) : Canonical s n → n ≤ 255 → ∀ (rest : Str) (done : Bytes),
    done.length ≤ 3 →
    inetPton4 (s ++ rest) ⟨done, 0, false, done.length⟩ = inetPton4 rest ⟨done, n, true, done.length + 1⟩ := by
  induction h with
  | @one c d hd hlt =>
    intro _ _ rest done hl
    obtain ⟨h1, h2⟩ := decDigit_of hd hlt
    rw [List.cons_append, List.nil_append, inetPton4, if_pos h1]
    simp only [Bool.false_eq_true, false_and, if_false, Nat.zero_mul, Nat.zero_add, h2]
    rw [if_neg (by omega), if_neg (by omega)]
  | @snoc s n c d hs hd hlt ih =>
    intro hc hn rest done hl
    obtain ⟨h1, h2⟩ := decDigit_of hd hlt
    obtain ⟨h3, h4⟩ := canonical_init hs hc
    rw [List.append_assoc, ih h3 (by omega) _ _ hl, List.cons_append, List.nil_append, inetPton4, if_pos h1]
    simp only [true_and, if_neg h4, h2, if_true]
    rw [if_neg (by omega)]

theorem inetPton4_complete {s : Str} {ns : List Nat} (h : DottedList s ns) : ∀ (done : Bytes),
    done.length + ns.length = 4 → inetPton4 s ⟨done, 0, false, done.length⟩ = some (done ++ ns.map UInt8.ofNat) := by
  induction h with
  | @one s n h =>
    intro done hl
    simp only [List.length_singleton] at hl
    have := inetPton4_byte h.1.1 h.1 h.2 [] done (by omega)
    rw [List.append_nil] at this
    rw [this, inetPton4]
    dsimp only
    rw [if_neg (by omega)]
    rfl
  | @cons s t n ns h ht ih =>
    intro done hl
    have hp := ht.length_pos
    simp only [List.length_cons] at hl
    rw [inetPton4_byte h.1.1 h.1 h.2 _ done (by omega), inetPton4, if_neg (by decide)]
    dsimp only
    rw [if_pos ⟨rfl, rfl⟩, if_neg (by omega)]
    have := ih (done ++ [UInt8.ofNat n]) (by simp; omega)
    rw [List.length_append, List.length_singleton] at this
    rw [this]
    simp

theorem inetPton4_iff {s : Str} {q : Bytes} : inetPton4 s {} = some q ↔
    ∃ ns, DottedList s ns ∧ ns.length = 4 ∧ q = ns.map UInt8.ofNat := by
  constructor
  · intro h
    obtain ⟨ns, h1, h2, h3⟩ := inetPton4_sound s (pend := []) (.inl ⟨rfl, rfl, rfl, rfl⟩) (by simp) h
    exact ⟨ns, h1, by simpa using h2, by simpa using h3⟩
  · rintro ⟨ns, h1, h2, rfl⟩
    exact inetPton4_complete h1 [] (by simpa using h2)

theorem dotted_four {s : Str} {ns : List Nat} (h : DottedList s ns) (h4 : ns.length = 4) :
    ∃ a b c d m n p q, DottedByte a m ∧ DottedByte b n ∧ DottedByte c p ∧ DottedByte d q ∧
      s = a ++ c!"." ++ b ++ c!"." ++ c ++ c!"." ++ d ∧ ns = [m, n, p, q] := by
  cases h with
  | one => simp at h4
  | cons h1 h =>
    cases h with
    | one => simp at h4
    | cons h2 h =>
      cases h with
      | one => simp at h4
      | cons h3 h =>
        cases h with
        | cons _ h => cases h <;> simp at h4
        | one h => exact ⟨_, _, _, _, _, _, _, _, h1, h2, h3, h, by simp, rfl⟩

theorem dottedList_of {a b c d : Str} {m n p q : Nat} (ha : DottedByte a m) (hb : DottedByte b n) (hc : DottedByte c p)
    (hd : DottedByte d q) : DottedList (a ++ c!"." ++ b ++ c!"." ++ c ++ c!"." ++ d) [m, n, p, q] := by
  have := DottedList.cons ha (.cons hb (.cons hc (.one hd)))
  simpa using this

/-! ### Groups -/

/-- The bytes of groups. -/
def groupBytes (ns : List Nat) : Bytes := ns.flatMap fun n => [UInt8.ofNat (n / 256), UInt8.ofNat (n % 256)]

theorem groupBytes_cons {n : Nat} {ns : List Nat} :
    groupBytes (n :: ns) = [UInt8.ofNat (n / 256), UInt8.ofNat (n % 256)] ++ groupBytes ns := by
  rfl

theorem groupBytes_append {ms ns : List Nat} : groupBytes (ms ++ ns) = groupBytes ms ++ groupBytes ns := by
  unfold groupBytes; rw [List.flatMap_append]

theorem groupBytes_length {ns : List Nat} : (groupBytes ns).length = 2 * ns.length := by
  induction ns with
  | nil => rfl
  | cons n ns ih => rw [groupBytes_cons, List.length_append, ih]; simp; omega

theorem groupBytes_zeros {k : Nat} : groupBytes (List.replicate k 0) = List.replicate (2 * k) 0 := by
  induction k with
  | zero => rfl
  | succ k ih => rw [List.replicate_succ, groupBytes_cons, ih, show 2 * (k + 1) = 2 * k + 1 + 1 by omega]; rfl

theorem dotted_bytes {m n p q : Nat} (hn : n ≤ 255) (hq : q ≤ 255) :
    groupBytes [m * 256 + n, p * 256 + q] = [m, n, p, q].map UInt8.ofNat := by
  unfold groupBytes
  simp only [List.flatMap_cons, List.flatMap_nil, List.map_cons, List.map_nil, List.append_nil, List.cons_append, List.nil_append]
  rw [show (m * 256 + n) / 256 = m by omega, show (m * 256 + n) % 256 = n by omega,
    show (p * 256 + q) / 256 = p by omega, show (p * 256 + q) % 256 = q by omega]

/-- What has been read of the current group. -/
def Pend6 (pend : Str) (st : Pton6) : Prop :=
  pend.length = st.xdigits ∧ st.xdigits ≤ 4 ∧ ((pend = [] ∧ st.val = 0) ∨ NumVal 16 pend st.val)

theorem pend_hextet {pend : Str} {st : Pton6} (h : Pend6 pend st) (h0 : st.xdigits ≠ 0) : Hextet pend st.val := by
  obtain ⟨h1, h2, ⟨h3, _⟩ | h3⟩ := h
  · rw [h3] at h1; exact absurd h1.symm h0
  · exact ⟨h3, by omega⟩

/-- The rest of an address, from the beginning of a group, after `::`. -/
def Tail (s : Str) (ns : List Nat) : Prop := (s = [] ∧ ns = []) ∨ Groups s ns

/-- The steps of the loop. -/
theorem loop_sound (G : Option Nat → Bytes → Str → Bytes → Prop) (bytes : Bytes)
    (hend : ∀ st : Pton6, st.xdigits = 0 → pton6Finish st = some bytes → G st.colonp st.out [] bytes)
    (hlast : ∀ (st : Pton6) pend, Pend6 pend st → st.xdigits ≠ 0 → pton6Finish st = some bytes → G st.colonp st.out pend bytes)
    (hcolon : ∀ out src, G (some out.length) out src bytes → G none out (':' :: src) bytes)
    (hnext : ∀ colonp out pend src n, Hextet pend n → src ≠ [] → out.length + 2 ≤ 16 →
      G colonp (out ++ [UInt8.ofNat (n / 256), UInt8.ofNat (n % 256)]) src bytes → G colonp out (pend ++ ':' :: src) bytes)
    (hdot : ∀ (st : Pton6) cur q, inetPton4 cur {} = some q → st.out.length + 4 ≤ 16 →
      pton6Finish { st with out := st.out ++ q, xdigits := 0 } = some bytes → G st.colonp st.out cur bytes) :
    ∀ (src : Str) {pend : Str} {st : Pton6}, Pend6 pend st →
      (pton6Loop src (pend ++ src) st).bind pton6Finish = some bytes → G st.colonp st.out (pend ++ src) bytes
  | [], pend, st, hp, h => by
    rw [pton6Loop, Option.bind_some] at h
    rw [List.append_nil]
    by_cases h0 : st.xdigits = 0
    · have : pend = [] := List.length_eq_zero_iff.1 (hp.1.trans h0)
      rw [this]
      exact hend st h0 h
    · exact hlast st pend hp h0 h
  | ch :: src, pend, st, hp, h => by
    rw [pton6Loop] at h
    split at h
    · rename_i d hd
      have hd := hexDigitValue_some hd
      split at h
      · cases h
      rename_i h4
      dsimp only at h
      split at h
      · cases h
      have happ : pend ++ ch :: src = pend ++ [ch] ++ src := by simp
      rw [happ] at h ⊢
      refine loop_sound G bytes hend hlast hcolon hnext hdot src (st := { st with val := st.val * 16 + d, xdigits := st.xdigits + 1 })
        ⟨by simp [hp.1], ?_, .inr ?_⟩ h
      · have := hp.2.1; dsimp only; omega
      · rcases hp.2.2 with ⟨rfl, h0⟩ | h0
        · rw [h0, Nat.zero_mul, Nat.zero_add]; exact .one hd (digits_lt hd)
        · exact .snoc h0 hd (digits_lt hd)
    · split at h
      · rename_i hc
        subst hc
        split at h
        · rename_i h0
          have hpe : pend = [] := List.length_eq_zero_iff.1 (hp.1.trans h0)
          subst hpe
          split at h
          · cases h
          rename_i hn
          have hnone : st.colonp = none := by
            cases hcp : st.colonp with
            | none => rfl
            | some _ => rw [hcp] at hn; exact absurd rfl hn
          rw [hnone]
          refine hcolon _ _ ?_
          exact loop_sound G bytes hend hlast hcolon hnext hdot src (pend := []) (st := { st with colonp := some st.out.length })
            hp h
        · rename_i h0
          split at h
          · cases h
          rename_i hne
          split at h
          · cases h
          rename_i hl
          refine hnext _ _ _ _ st.val (pend_hextet hp h0) hne (by omega) ?_
          exact loop_sound G bytes hend hlast hcolon hnext hdot src (pend := [])
            (st := { st with out := pton6Put st, xdigits := 0, val := 0 }) ⟨rfl, by simp, .inl ⟨rfl, rfl⟩⟩ h
      · split at h
        · rename_i hc
          split at h
          · rename_i q hq
            exact hdot st _ q hq hc.2 h
          · cases h
        · cases h

/-- The address that a rest of a text leads to. -/
def Rest : Option Nat → Bytes → Str → Bytes → Prop
  | some p, out, s, bytes => out.length ≤ 16 → p ≤ out.length → ∃ ns, Tail s ns ∧ out.length + 2 * ns.length < 16 ∧
      bytes = out.take p ++ List.replicate (16 - (out.length + 2 * ns.length)) 0 ++ (out.drop p ++ groupBytes ns)
  | none, out, s, bytes => out.length ≤ 16 →
      (∃ ns, Tail s ns ∧ out.length + 2 * ns.length = 16 ∧ bytes = out ++ groupBytes ns) ∨
      ∃ a ms b ns, s = a ++ ':' :: b ∧ ((a = [] ∧ ms = []) ∨ ∃ a', a = a' ++ c!":" ∧ Hextets a' ms) ∧ Tail b ns ∧
        out.length + 2 * ms.length + 2 * ns.length < 16 ∧
        bytes = out ++ groupBytes ms ++ List.replicate (16 - (out.length + 2 * ms.length + 2 * ns.length)) 0 ++ groupBytes ns

/-- The end of a text. -/
theorem rest_end {colonp : Option Nat} {out : Bytes} {x v : Nat} {ns : List Nat} {s : Str} {bytes : Bytes} (ht : Tail s ns)
    (hx : x = 0) (hb : out.length ≤ 16 → out.length + 2 * ns.length ≤ 16)
    (h : pton6Finish ⟨out ++ groupBytes ns, colonp, x, v⟩ = some bytes) : Rest colonp out s bytes := by
  subst hx
  unfold pton6Finish at h
  simp only [gt_iff_lt, Nat.lt_irrefl, false_and, if_false] at h
  have hlen : (out ++ groupBytes ns).length = out.length + 2 * ns.length := by rw [List.length_append, groupBytes_length]
  cases colonp with
  | none =>
    intro _
    dsimp only at h
    split at h
    · rename_i hl
      injection h with h
      rw [hlen] at hl
      exact .inl ⟨ns, ht, hl, h.symm⟩
    · cases h
  | some p =>
    intro hl hp
    have hb := hb hl
    dsimp only at h
    split at h
    · cases h
    · rename_i hl
      injection h with h
      rw [hlen] at hl h
      refine ⟨ns, ht, by omega, ?_⟩
      rw [← h, List.take_append_of_le_length hp, List.drop_append_of_le_length hp]

theorem finish_last {st : Pton6} {bytes : Bytes} (h0 : st.xdigits ≠ 0) (h : pton6Finish st = some bytes) :
    st.out.length + 2 ≤ 16 ∧ pton6Finish ⟨st.out ++ groupBytes [st.val], st.colonp, 0, 0⟩ = some bytes := by
  unfold pton6Finish at h ⊢
  rw [if_pos (show st.xdigits > 0 by omega)] at h
  split at h
  · cases h
  · rename_i hl
    refine ⟨by omega, ?_⟩
    simp only [gt_iff_lt, Nat.lt_irrefl, false_and, if_false]
    exact h

theorem rest_sound {bytes : Bytes} (src : Str) {pend : Str} {st : Pton6} (hp : Pend6 pend st)
    (h : (pton6Loop src (pend ++ src) st).bind pton6Finish = some bytes) : Rest st.colonp st.out (pend ++ src) bytes := by
  refine loop_sound Rest bytes ?_ ?_ ?_ ?_ ?_ src hp h
  · intro st h0 h
    refine rest_end (ns := []) (x := st.xdigits) (v := st.val) (.inl ⟨rfl, rfl⟩) h0 (by simp) ?_
    rw [show groupBytes [] = [] from rfl, List.append_nil]
    exact h
  · intro st pend hp h0 h
    obtain ⟨h1, h2⟩ := finish_last h0 h
    exact rest_end (.inr (.one (pend_hextet hp h0))) rfl (fun _ => by simpa using h1) h2
  · intro out src h hl
    obtain ⟨ns, h1, h2, h3⟩ := h hl (Nat.le_refl _)
    refine .inr ⟨[], [], src, ns, rfl, .inl ⟨rfl, rfl⟩, h1, by simpa using h2, ?_⟩
    rw [h3, List.take_length, List.drop_length]
    simp [groupBytes]
  · intro colonp out pend src n hn hne hl h
    have hcons : ∀ {ns : List Nat}, Tail src ns → Groups (pend ++ ':' :: src) (n :: ns) := by
      rintro ns (⟨rfl, _⟩ | hg)
      · exact absurd rfl hne
      · have := Groups.cons hn hg
        simpa using this
    cases colonp with
    | some p =>
      intro _ hp
      obtain ⟨ns, h1, h2, h3⟩ := h (by simp; omega) (by simp; omega)
      refine ⟨n :: ns, .inr (hcons h1), by simp at h2 ⊢; omega, ?_⟩
      rw [h3, List.take_append_of_le_length hp, List.drop_append_of_le_length hp, groupBytes_cons]
      simp only [List.length_append, List.length_cons, List.length_nil, List.append_assoc]
      congr 3
      omega
    | none =>
      intro _
      rcases h (by simp; omega) with ⟨ns, h1, h2, h3⟩ | ⟨a, ms, b, ns, h1, h2, h3, h4, h5⟩
      · refine .inl ⟨n :: ns, .inr (hcons h1), by simp at h2 ⊢; omega, ?_⟩
        rw [h3, groupBytes_cons, List.append_assoc]
      · refine .inr ⟨pend ++ ':' :: a, n :: ms, b, ns, ?_, .inr ?_, h3, by simp at h4 ⊢; omega, ?_⟩
        · rw [h1]; simp
        · rcases h2 with ⟨rfl, rfl⟩ | ⟨a', rfl, ha⟩
          · exact ⟨pend, rfl, .one hn⟩
          · refine ⟨pend ++ c!":" ++ a', by simp, .cons hn ha⟩
        · rw [h5, groupBytes_cons]
          simp only [List.length_append, List.length_cons, List.length_nil, List.append_assoc]
          rw [show out.length + (0 + 1 + 1) + 2 * ms.length + 2 * ns.length = out.length + 2 * (ms.length + 1) + 2 * ns.length by omega]
  · intro st cur q hq hl h
    obtain ⟨ns, h1, h2, h3⟩ := inetPton4_iff.1 hq
    obtain ⟨a, b, c, d, m, n, p, q', ha, hb, hc, hd, rfl, rfl⟩ := dotted_four h1 h2
    refine rest_end (.inr (.dotted ha hb hc hd)) rfl (x := 0) (v := st.val) (fun _ => by simpa using hl) ?_
    rw [dotted_bytes hb.2 hd.2, ← h3]
    exact h

/-! ### Completeness -/

/-- Reading a group. -/
theorem loop_group {s : Str} {n : Nat} (h : NumVal 16 s n) : s.length ≤ 4 → ∀ (rest cur : Str) (out : Bytes) (colonp : Option Nat),
    pton6Loop (s ++ rest) cur ⟨out, colonp, 0, 0⟩ = pton6Loop rest cur ⟨out, colonp, s.length, n⟩ := by
  induction h with
  | @one c d hd hlt =>
    intro _ rest cur out colonp
    rw [List.cons_append, List.nil_append, pton6Loop, hexDigitValue_of hd]
    dsimp only
    rw [if_neg (by omega), if_neg (by omega), Nat.zero_mul, Nat.zero_add, Nat.zero_add]
    rfl
  | @snoc s n c d hs hd hlt ih =>
    intro hl rest cur out colonp
    rw [List.length_append, List.length_singleton] at hl
    have hn := numVal_lt hs
    have hn2 : n < 16 ^ 3 := Nat.lt_of_lt_of_le hn (Nat.pow_le_pow_right (by omega) (by omega))
    rw [List.append_assoc, ih (by omega), List.cons_append, List.nil_append, pton6Loop, hexDigitValue_of hd]
    dsimp only
    rw [if_neg (by omega), if_neg (by omega), List.length_append, List.length_singleton]

theorem hextet_ne {s : Str} {n : Nat} (h : Hextet s n) : s.length ≠ 0 := by
  have := List.length_pos_iff.2 (numVal_ne h.1)
  omega

theorem groups_ne {s : Str} {ns : List Nat} (h : Groups s ns) : s ≠ [] := by
  cases h with
  | one h => exact numVal_ne h.1
  | dotted => simp
  | cons => simp

theorem hextets_ne {s : Str} {ns : List Nat} (h : Hextets s ns) : s ≠ [] := by
  cases h with
  | one h => exact numVal_ne h.1
  | cons => simp

/-- Reading a group and the colon after it. -/
theorem loop_next {s : Str} {n : Nat} (h : Hextet s n) {rest : Str} (hne : rest ≠ []) (cur : Str) {out : Bytes}
    (hl : out.length + 2 ≤ 16) (colonp : Option Nat) :
    pton6Loop (s ++ ':' :: rest) cur ⟨out, colonp, 0, 0⟩ = pton6Loop rest rest ⟨out ++ groupBytes [n], colonp, 0, 0⟩ := by
  rw [loop_group h.1 h.2, pton6Loop]
  rw [show hexDigitValue ':' = none by decide]
  dsimp only
  rw [if_pos rfl, if_neg (hextet_ne h), if_neg hne, if_neg (by omega)]
  rfl

theorem numVal_widen {s : Str} {n : Nat} (h : NumVal 10 s n) : ∃ m, NumVal 16 s m := by
  induction h with
  | one hd hlt => exact ⟨_, .one hd (digits_lt hd)⟩
  | snoc _ hd hlt ih => obtain ⟨m, hm⟩ := ih; exact ⟨_, .snoc hm hd (digits_lt hd)⟩

theorem dottedByte_length {s : Str} {n : Nat} (h : DottedByte s n) : s.length ≤ 3 := by
  rcases h.1.2 with h0 | h0
  · rw [h0]; decide
  · have h1 := numVal_ge h.1.1 h0
    have h2 := h.2
    refine Nat.le_of_not_lt fun h3 => ?_
    have h4 : 10 ^ 3 ≤ 10 ^ (s.length - 1) := Nat.pow_le_pow_right (by omega) (by omega)
    omega

/-- What the loop and the end of the function make of the rest of an address. -/
theorem tail_complete {s : Str} {ns : List Nat} (h : Groups s ns) : ∀ {out : Bytes} {colonp : Option Nat},
    out.length + 2 * ns.length ≤ 16 →
    (pton6Loop s s ⟨out, colonp, 0, 0⟩).bind pton6Finish = pton6Finish ⟨out ++ groupBytes ns, colonp, 0, 0⟩ := by
  induction h with
  | @one s n h =>
    intro out colonp hl
    simp only [List.length_singleton] at hl
    have := loop_group h.1 h.2 [] s out colonp
    rw [List.append_nil] at this
    rw [this, pton6Loop, Option.bind_some]
    have h0 := hextet_ne h
    unfold pton6Finish
    dsimp only
    rw [if_neg (by omega), if_pos (show s.length > 0 by omega)]
    rfl
  | @dotted a b c d m n p q ha hb hc hd =>
    intro out colonp hl
    simp only [List.length_cons, List.length_nil] at hl
    have hq := inetPton4_iff.2 ⟨_, dottedList_of ha hb hc hd, rfl, rfl⟩
    obtain ⟨v, hv⟩ := numVal_widen ha.1.1
    have happ : a ++ c!"." ++ b ++ c!"." ++ c ++ c!"." ++ d = a ++ '.' :: (b ++ c!"." ++ c ++ c!"." ++ d) := by simp
    have h3 := dottedByte_length ha
    generalize hs : a ++ c!"." ++ b ++ c!"." ++ c ++ c!"." ++ d = s at happ hq
    rw [show pton6Loop s s ⟨out, colonp, 0, 0⟩ = pton6Loop (a ++ '.' :: (b ++ c!"." ++ c ++ c!"." ++ d)) s ⟨out, colonp, 0, 0⟩ by rw [← happ],
      loop_group hv (by omega), pton6Loop, show hexDigitValue '.' = none by decide]
    dsimp only
    rw [if_neg (by decide), if_pos ⟨rfl, by omega⟩, hq, dotted_bytes hb.2 hd.2]
    unfold pton6Finish
    rfl
  | @cons s t n ns h ht ih =>
    intro out colonp hl
    simp only [List.length_cons] at hl
    have happ : s ++ c!":" ++ t = s ++ ':' :: t := by simp
    rw [happ, loop_next h (groups_ne ht) _ (by omega), ih (by rw [List.length_append, groupBytes_length]; simp only [List.length_singleton]; omega),
      List.append_assoc, ← groupBytes_append]
    rfl

/-- The groups before `::`. -/
theorem head_complete {a : Str} {ms : List Nat} (h : Hextets a ms) : ∀ {out : Bytes} (b : Str),
    out.length + 2 * ms.length ≤ 16 →
    pton6Loop (a ++ c!"::" ++ b) (a ++ c!"::" ++ b) ⟨out, none, 0, 0⟩ =
      pton6Loop b b ⟨out ++ groupBytes ms, some (out.length + 2 * ms.length), 0, 0⟩ := by
  have hcol : ∀ (b : Str) (out : Bytes), pton6Loop (':' :: b) (':' :: b) ⟨out, none, 0, 0⟩ = pton6Loop b b ⟨out, some out.length, 0, 0⟩ := by
    intro b out
    rw [pton6Loop, show hexDigitValue ':' = none by decide]
    dsimp only
    rw [if_pos rfl, if_pos rfl]
    rfl
  induction h with
  | @one s n h =>
    intro out b hl
    simp only [List.length_singleton] at hl
    have happ : s ++ c!"::" ++ b = s ++ ':' :: (':' :: b) := by simp
    rw [happ, loop_next h (by simp) _ (by omega), hcol]
    simp [groupBytes_length]
  | @cons s t n ns h ht ih =>
    intro out b hl
    simp only [List.length_cons] at hl
    have happ : s ++ c!":" ++ t ++ c!"::" ++ b = s ++ ':' :: (t ++ c!"::" ++ b) := by simp
    rw [happ, loop_next h (by simp) _ (by omega), ih b (by rw [List.length_append, groupBytes_length]; simp only [List.length_singleton]; omega),
      List.append_assoc, ← groupBytes_append, List.length_append, groupBytes_length]
    simp only [List.length_cons, List.length_nil]
    rw [show out.length + 2 * (0 + 1) + 2 * ns.length = out.length + 2 * (ns.length + 1) by omega]
    rfl

theorem numVal_colon {s : Str} {n : Nat} (h : NumVal 16 s n) (t : Str) : (s ++ t).head? ≠ some ':' := by
  cases s with
  | nil => exact absurd rfl (numVal_ne h)
  | cons c cs =>
    obtain ⟨d, hd, _⟩ := h.mem c (by simp)
    rw [List.cons_append, List.head?_cons]
    intro hc
    injection hc with hc
    subst hc
    have key : ∀ p ∈ digits, p.1 ≠ ':' := by decide
    exact key _ hd rfl

theorem hextets_colon {s : Str} {ns : List Nat} (h : Hextets s ns) : s.head? ≠ some ':' := by
  cases h with
  | one h => have := numVal_colon h.1 []; rwa [List.append_nil] at this
  | cons h _ => rw [List.append_assoc]; exact numVal_colon h.1 _

theorem groups_colon {s : Str} {ns : List Nat} (h : Groups s ns) : s.head? ≠ some ':' := by
  cases h with
  | one h => have := numVal_colon h.1 []; rwa [List.append_nil] at this
  | dotted ha _ _ _ =>
    obtain ⟨v, hv⟩ := numVal_widen ha.1.1
    simp only [List.append_assoc]
    exact numVal_colon hv _
  | cons h _ => rw [List.append_assoc]; exact numVal_colon h.1 _

/-- The bytes of the groups of an address. -/
theorem inetPton6_iff {s : Str} {bytes : Bytes} :
    inetPton6 s = some bytes ↔ ∃ ns, Ipv6Text s ns ∧ bytes = groupBytes ns := by
  have hstart : Pend6 [] {} := ⟨rfl, by decide, .inl ⟨rfl, rfl⟩⟩
  have hshort : ∀ {a b : Str} {ms ns : List Nat}, (a = [] ∧ ms = []) ∨ Hextets a ms → Tail b ns →
      2 * ms.length + 2 * ns.length < 16 →
      ∃ ks, Ipv6Text (a ++ c!"::" ++ b) ks ∧
        groupBytes ms ++ List.replicate (16 - (2 * ms.length + 2 * ns.length)) 0 ++ groupBytes ns = groupBytes ks := by
    intro a b ms ns ha hb hl
    refine ⟨_, .short (k := 8 - (ms.length + ns.length)) ha hb (by omega) (by omega), ?_⟩
    rw [groupBytes_append, groupBytes_append, groupBytes_zeros,
      show 2 * (8 - (ms.length + ns.length)) = 16 - (2 * ms.length + 2 * ns.length) by omega]
  constructor
  · intro h
    have cases_ : ∀ {t : Str}, (pton6Loop t t {}).bind pton6Finish = some bytes →
        (∃ ns, Tail t ns ∧ 2 * ns.length = 16 ∧ bytes = groupBytes ns) ∨
        ∃ a ms b ns, t = a ++ ':' :: b ∧ ((a = [] ∧ ms = []) ∨ ∃ a', a = a' ++ c!":" ∧ Hextets a' ms) ∧ Tail b ns ∧
          2 * ms.length + 2 * ns.length < 16 ∧
          bytes = groupBytes ms ++ List.replicate (16 - (2 * ms.length + 2 * ns.length)) 0 ++ groupBytes ns := by
      intro t h
      have := rest_sound t hstart h (by simp)
      simpa using this
    unfold inetPton6 at h
    split at h
    · cases h
    · rename_i src
      split at h
      · rename_i hc
        rcases cases_ h with ⟨ns, h1, h2, h3⟩ | ⟨a, ms, b, ns, h1, h2, h3, h4, h5⟩
        · rcases h1 with ⟨rfl, rfl⟩ | h1
          · simp at h2
          · exact absurd hc (groups_colon h1)
        · rcases h2 with ⟨rfl, rfl⟩ | ⟨a', rfl, ha⟩
          · rw [h1, h5]
            exact hshort (a := []) (.inl ⟨rfl, rfl⟩) h3 h4
          · exfalso
            apply hextets_colon ha
            rw [h1] at hc
            cases a' with
            | nil => exact absurd rfl (hextets_ne ha)
            | cons x xs => exact hc
      · cases h
    · rename_i hc
      rcases cases_ h with ⟨ns, h1, h2, h3⟩ | ⟨a, ms, b, ns, h1, h2, h3, h4, h5⟩
      · rcases h1 with ⟨rfl, rfl⟩ | h1
        · simp at h2
        · exact ⟨ns, .full h1 (by omega), h3⟩
      · rcases h2 with ⟨rfl, rfl⟩ | ⟨a', rfl, ha⟩
        · exact absurd h1 (hc b)
        · rw [h1, h5]
          have := hshort (.inr ha) h3 h4
          simpa using this
  · rintro ⟨ns, h, rfl⟩
    have hrun : ∀ {s : Str}, s ≠ [] → s.head? ≠ some ':' → inetPton6 s = (pton6Loop s s {}).bind pton6Finish := by
      intro s h1 h2
      unfold inetPton6
      split
      · exact absurd rfl h1
      · exact absurd rfl h2
      · rfl
    cases h with
    | full h hl =>
      rw [hrun (groups_ne h) (groups_colon h), tail_complete h (out := []) (by simp; omega)]
      unfold pton6Finish
      simp [groupBytes_length, hl]
    | @short a b ms ns k ha hb hk hl =>
      have hfin : ∀ {b : Str}, Tail b ns → (pton6Loop b b ⟨groupBytes ms, some (2 * ms.length), 0, 0⟩).bind pton6Finish =
          some (groupBytes (ms ++ List.replicate k 0 ++ ns)) := by
        intro b hb
        have : (pton6Loop b b ⟨groupBytes ms, some (2 * ms.length), 0, 0⟩).bind pton6Finish =
            pton6Finish ⟨groupBytes ms ++ groupBytes ns, some (2 * ms.length), 0, 0⟩ := by
          rcases hb with ⟨rfl, rfl⟩ | hb
          · rw [pton6Loop, Option.bind_some, show groupBytes [] = [] from rfl, List.append_nil]
          · exact tail_complete hb (by rw [groupBytes_length]; omega)
        rw [this]
        unfold pton6Finish
        simp only [gt_iff_lt, Nat.lt_irrefl, false_and, if_false, List.length_append, groupBytes_length]
        rw [if_neg (by omega), List.take_append_of_le_length (by rw [groupBytes_length]; omega),
          List.drop_append_of_le_length (by rw [groupBytes_length]; omega), List.take_of_length_le (by rw [groupBytes_length]; omega),
          List.drop_of_length_le (by rw [groupBytes_length]; omega), groupBytes_append, groupBytes_append, groupBytes_zeros,
          show 16 - (2 * ms.length + 2 * ns.length) = 2 * k by omega]
        rfl
      rcases ha with ⟨rfl, rfl⟩ | ha
      · have : inetPton6 ([] ++ c!"::" ++ b) = (pton6Loop (':' :: b) (':' :: b) {}).bind pton6Finish := by
          unfold inetPton6
          rfl
        rw [this, pton6Loop, show hexDigitValue ':' = none by decide]
        exact hfin hb
      · rw [hrun (by simp) (by
            have := hextets_colon ha
            cases a with
            | nil => exact absurd rfl (hextets_ne ha)
            | cons x xs => exact this), head_complete ha b (out := []) (by simp; omega)]
        have := hfin hb
        simpa using this

end P4C
