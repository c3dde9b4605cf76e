import Verif.Model.Symbolic
import Verif.Spec.Symbolic

/-
From bit-vector values to P4Runtime byte strings.
-/

namespace P4C

open Spec

/-- Value of a string of digits in base `b`, continuing from `acc`. -/
def strVal (d : Char → Nat) (b : Nat) : Nat → Str → Nat
  | acc, [] => acc
  | acc, c :: cs => strVal d b (b * acc + d c) cs

theorem strVal_acc (d : Char → Nat) (b acc : Nat) (s : Str) :
    strVal d b acc s = acc * b ^ s.length + strVal d b 0 s := by
  induction s generalizing acc with
  | nil => simp [strVal]
  | cons c cs ih =>
    simp only [strVal, List.length_cons]
    rw [ih, ih (b * 0 + d c), Nat.pow_succ]
    have : (b * acc + d c) * b ^ cs.length = acc * (b ^ cs.length * b) + d c * b ^ cs.length := by
      rw [Nat.add_mul]
      congr 1
      rw [Nat.mul_comm b acc, Nat.mul_assoc, Nat.mul_comm b]
    rw [this]
    simp only [Nat.mul_zero, Nat.zero_add]
    omega

theorem strVal_append (d : Char → Nat) (b acc : Nat) (s t : Str) :
    strVal d b acc (s ++ t) = strVal d b (strVal d b acc s) t := by
  induction s generalizing acc with
  | nil => rfl
  | cons c cs ih => exact ih _

/-! ### Binary -/

/-- Value of a binary digit. -/
def bitOf (c : Char) : Nat := if c = '1' then 1 else 0

theorem strVal_bits (n bits acc : Nat) :
    strVal bitOf 2 acc (bitsetToString n bits) = acc * 2 ^ n + bits % 2 ^ n := by
  induction n generalizing acc with
  | zero => simp [bitsetToString, strVal, Nat.mod_one]
  | succ n ih =>
    simp only [bitsetToString, strVal]
    rw [ih]
    have hb : bitOf (if bits.testBit n = true then '1' else '0') = bits / 2 ^ n % 2 := by
      rw [Nat.testBit_eq_decide_div_mod_eq]
      have := Nat.mod_two_eq_zero_or_one (bits / 2 ^ n)
      rcases this with h | h <;> rw [h] <;> rfl
    rw [hb]
    have : bits % 2 ^ (n + 1) = bits % 2 ^ n + 2 ^ n * (bits / 2 ^ n % 2) := by
      rw [Nat.pow_succ, Nat.mod_mul]
    rw [this, Nat.pow_succ, Nat.add_mul, Nat.mul_comm 2 acc, Nat.mul_assoc, Nat.mul_comm 2 (2 ^ n),
      Nat.mul_comm (2 ^ n) (bits / 2 ^ n % 2)]
    omega

theorem bitsetToString_length (n bits : Nat) : (bitsetToString n bits).length = n := by
  induction n with
  | zero => rfl
  | succ n ih => simp [bitsetToString, ih]

theorem uint8_step (byte : UInt8) (c : Char) (h : byte.toNat < 128) :
    (byte * 2 + (if c = '1' then 1 else 0)).toNat = 2 * byte.toNat + bitOf c := by
  unfold bitOf
  split
  · rw [UInt8.toNat_add, UInt8.toNat_mul]
    have h2 : (2 : UInt8).toNat = 2 := rfl
    have h1 : (1 : UInt8).toNat = 1 := rfl
    rw [h1, h2]
    omega
  · rw [UInt8.toNat_add, UInt8.toNat_mul]
    have h2 : (2 : UInt8).toNat = 2 := rfl
    have h1 : (0 : UInt8).toNat = 0 := rfl
    rw [h1, h2]
    omega

theorem byte_bound {byte : UInt8} {i : Nat} (h : byte.toNat < 2 ^ (i % 8)) : byte.toNat < 128 := by
  have h1 : (2 : Nat) ^ (i % 8) ≤ 2 ^ 7 := Nat.pow_le_pow_right (by decide) (by omega)
  omega

theorem bitLoop_length (s : Str) : ∀ (i : Nat) (byte : UInt8), (i + s.length) % 8 = 0 →
    (bitLoop i byte true s).length = (i % 8 + s.length) / 8 := by
  induction s with
  | nil =>
    intro i byte h
    simp only [List.length_nil, Nat.add_zero] at h
    simp [bitLoop, h]
  | cons c cs ih =>
    intro i byte h
    rw [List.length_cons] at h
    unfold bitLoop
    dsimp only
    by_cases h8 : (i + 1) % 8 = 0
    · rw [if_pos h8, if_pos (by simp), List.length_cons, ih _ _ (by omega), List.length_cons]
      omega
    · rw [if_neg h8, ih _ _ (by omega), List.length_cons]
      omega

theorem bytesNat_cons (b : UInt8) (bs : Bytes) : bytesNat (b :: bs) = b.toNat * 256 ^ bs.length + bytesNat bs := rfl

theorem pow_256 (k : Nat) : 256 ^ k = 2 ^ (8 * k) := by
  rw [Nat.pow_mul]

theorem bitLoop_value (s : Str) : ∀ (i : Nat) (byte : UInt8) (seen : Bool), (i + s.length) % 8 = 0 →
    byte.toNat < 2 ^ (i % 8) → bytesNat (bitLoop i byte seen s) = byte.toNat * 2 ^ s.length + strVal bitOf 2 0 s := by
  induction s with
  | nil =>
    intro i byte seen h hb
    simp only [List.length_nil, Nat.add_zero] at h
    rw [h] at hb
    simp only [Nat.pow_zero] at hb
    have : byte.toNat = 0 := by omega
    simp [bitLoop, strVal, this, bytesNat]
  | cons c cs ih =>
    intro i byte seen h hb
    rw [List.length_cons] at h
    have hstep := uint8_step byte c (byte_bound hb)
    have hval : strVal bitOf 2 0 (c :: cs) = bitOf c * 2 ^ cs.length + strVal bitOf 2 0 cs := by
      show strVal bitOf 2 (2 * 0 + bitOf c) cs = _
      rw [strVal_acc]
      simp
    have harith : byte.toNat * 2 ^ (cs.length + 1) + bitOf c * 2 ^ cs.length =
        (2 * byte.toNat + bitOf c) * 2 ^ cs.length := by
      rw [Nat.add_mul, Nat.pow_succ, Nat.mul_comm 2 byte.toNat, Nat.mul_assoc, Nat.mul_comm 2]
    unfold bitLoop
    dsimp only
    rw [List.length_cons, hval, ← Nat.add_assoc, harith]
    generalize byte * 2 + (if c = '1' then 1 else 0) = byte' at hstep ⊢
    have hz : (0 : UInt8).toNat < 2 ^ ((i + 1) % 8) := by
      have : (0 : UInt8).toNat = 0 := rfl
      rw [this]
      exact Nat.pow_pos (by decide)
    have hz' : (0 : UInt8).toNat = 0 := rfl
    by_cases h8 : (i + 1) % 8 = 0
    · rw [if_pos h8]
      split
      · rw [bytesNat_cons, ih _ _ _ (by omega) hz, hstep, bitLoop_length _ _ _ (by omega), pow_256, hz']
        have : 8 * (((i + 1) % 8 + cs.length) / 8) = cs.length := by omega
        rw [this]
        omega
      · rename_i hne
        simp only [Bool.or_eq_true, decide_eq_true_eq, not_or, Decidable.not_not] at hne
        rw [ih _ _ _ (by omega) hz, ← hstep, hne.2, hz']
    · rw [if_neg h8, ih _ _ _ (by omega) ?_, hstep]
      rw [hstep]
      have h1 : (i + 1) % 8 = i % 8 + 1 := by omega
      rw [h1, Nat.pow_succ]
      have : bitOf c ≤ 1 := by unfold bitOf; split <;> omega
      omega

theorem bitLoop_first (s : Str) : ∀ (i : Nat) (byte : UInt8) (b : UInt8) (bs : Bytes), bitLoop i byte false s = b :: bs →
    b ≠ 0 := by
  induction s with
  | nil => intro i byte b bs h; cases h
  | cons c cs ih =>
    intro i byte b bs h
    unfold bitLoop at h
    dsimp only at h
    generalize byte * 2 + (if c = '1' then 1 else 0) = byte' at h
    split at h
    · split at h
      · rename_i hne
        injection h with h1 h2
        subst h1
        simpa using hne
      · exact ih _ _ _ _ h
    · exact ih _ _ _ _ h

theorem strVal_zeros (d : Char → Nat) (hd : d '0' = 0) (b n : Nat) (s : Str) :
    strVal d b 0 (List.replicate n '0' ++ s) = strVal d b 0 s := by
  induction n with
  | zero => rfl
  | succ n ih =>
    rw [List.replicate_succ, List.cons_append]
    show strVal d b (b * 0 + d '0') _ = _
    rw [hd]
    exact ih

theorem canonicalBytes_zero : CanonicalBytes [0] := by
  refine ⟨nofun, ?_⟩
  intro b rest h hr
  cases h
  exact (hr rfl).elim

theorem bitstringToBytes_spec (w n : Nat) :
    bytesNat (bitstringToBytes (bitsetToString w n) w) = n % 2 ^ w ∧ CanonicalBytes (bitstringToBytes (bitsetToString w n) w) := by
  unfold bitstringToBytes
  dsimp only
  have hpad : ∃ k, (if w % 8 ≠ 0 then List.replicate (8 - w % 8) '0' ++ bitsetToString w n else bitsetToString w n) =
      List.replicate k '0' ++ bitsetToString w n ∧ (k + w) % 8 = 0 := by
    by_cases h : w % 8 = 0
    · exact ⟨0, by rw [if_neg (by simpa using h)]; rfl, by omega⟩
    · exact ⟨8 - w % 8, by rw [if_pos h], by omega⟩
  obtain ⟨k, hk, hk8⟩ := hpad
  rw [hk]
  have hv := bitLoop_value (List.replicate k '0' ++ bitsetToString w n) 0 0 false
    (by rw [List.length_append, List.length_replicate, bitsetToString_length]; omega) (by decide)
  have hz' : (0 : UInt8).toNat = 0 := rfl
  rw [strVal_zeros _ (by decide), strVal_bits, hz'] at hv
  simp only [Nat.zero_mul, Nat.zero_add] at hv
  cases hb : bitLoop 0 0 false (List.replicate k '0' ++ bitsetToString w n) with
  | nil =>
    rw [hb] at hv
    simp only [List.isEmpty_nil, if_true]
    exact ⟨hv, canonicalBytes_zero⟩
  | cons b bs =>
    rw [hb] at hv
    simp only [List.isEmpty_cons, Bool.false_eq_true, if_false]
    refine ⟨hv, nofun, ?_⟩
    intro b' rest h _
    cases h
    exact bitLoop_first _ _ _ _ _ hb

/-! ### Hexadecimal -/

theorem xdigitVal_hexDigit {n : Nat} (h : n < 16) : xdigitVal (hexDigit n) = n ∧ (hexDigit n = '0' → n = 0) := by
  have : ∀ n : Fin 16, xdigitVal (hexDigit n) = n ∧ (hexDigit n = '0' → n.val = 0) := by decide
  exact this ⟨n, h⟩

/-- A lower-case hexadecimal digit. -/
def IsHex (c : Char) : Prop := ∃ n, n < 16 ∧ c = hexDigit n

theorem hexDigits_all (k n : Nat) : ∀ c ∈ hexDigits k n, IsHex c := by
  induction k generalizing n with
  | zero => intro c hc; cases hc
  | succ k ih =>
    intro c hc
    unfold hexDigits at hc
    rcases List.mem_append.1 hc with h | h
    · exact ih _ c h
    · rw [List.mem_singleton] at h
      exact ⟨n % 16, by omega, h⟩

theorem hexDigits_val (k n : Nat) : strVal xdigitVal 16 0 (hexDigits k n) = n % 16 ^ k := by
  induction k generalizing n with
  | zero => simp [hexDigits, strVal, Nat.mod_one]
  | succ k ih =>
    unfold hexDigits
    rw [strVal_append, ih]
    show 16 * _ + xdigitVal _ = _
    rw [(xdigitVal_hexDigit (by omega : n % 16 < 16)).1, Nat.pow_succ, Nat.mul_comm (16 ^ k) 16, Nat.mod_mul]
    omega

theorem hexStringToBytes_length : ∀ s : Str, (hexStringToBytes s).length = s.length / 2
  | [] => rfl
  | [_] => by simp [hexStringToBytes]
  | _ :: _ :: cs => by
    simp only [hexStringToBytes, List.length_cons, hexStringToBytes_length cs]
    omega

theorem isHex_lt {c : Char} (h : IsHex c) : xdigitVal c < 16 := by
  obtain ⟨n, hn, rfl⟩ := h
  rw [(xdigitVal_hexDigit hn).1]
  exact hn

theorem hexStringToBytes_val : ∀ s : Str, s.length % 2 = 0 → (∀ c ∈ s, IsHex c) →
    bytesNat (hexStringToBytes s) = strVal xdigitVal 16 0 s
  | [], _, _ => rfl
  | [_], h, _ => by simp at h
  | a :: b :: cs, h, hx => by
    have ha := isHex_lt (hx a (by simp))
    have hb := isHex_lt (hx b (by simp))
    have ih := hexStringToBytes_val cs (by simp only [List.length_cons] at h; omega) fun c hc => hx c (by simp [hc])
    show (UInt8.ofNat _).toNat * 256 ^ (hexStringToBytes cs).length + bytesNat _ =
      strVal xdigitVal 16 (16 * (16 * 0 + xdigitVal a) + xdigitVal b) cs
    rw [strVal_acc, ih, hexStringToBytes_length, UInt8.toNat_ofNat']
    have h1 : (xdigitVal a * 16 + xdigitVal b) % 2 ^ 8 = 16 * (16 * 0 + xdigitVal a) + xdigitVal b := by omega
    have h2 : 256 ^ (cs.length / 2) = 16 ^ cs.length := by
      have : cs.length = 2 * (cs.length / 2) := by
        simp only [List.length_cons] at h
        omega
      generalize cs.length / 2 = m at *
      rw [this, Nat.pow_mul]
    rw [h1, h2]

theorem hexstringToBytes_spec {s : Str} (hx : ∀ c ∈ s, IsHex c) :
    bytesNat (hexstringToBytes s) = strVal xdigitVal 16 0 s ∧ CanonicalBytes (hexstringToBytes s) := by
  have hval : strVal xdigitVal 16 0 (s.dropWhile (· = '0')) = strVal xdigitVal 16 0 s := by
    clear hx
    induction s with
    | nil => rfl
    | cons c cs ih =>
      rw [List.dropWhile_cons]
      split
      · rename_i h
        have h : c = '0' := by simpa using h
        subst h
        rw [ih]
        rfl
      · rfl
  have hx' : ∀ c ∈ s.dropWhile (· = '0'), IsHex c := fun c hc => hx c ((List.dropWhile_suffix _).subset hc)
  have hhead : ∀ c cs, s.dropWhile (· = '0') = c :: cs → c ≠ '0' := by
    intro c cs h hc
    have h1 : s.dropWhile (· = '0') ≠ [] := by rw [h]; nofun
    have := List.head_dropWhile_not (fun c : Char => decide (c = '0')) h1
    simp only [h, List.head_cons, hc] at this
    cases this
  unfold hexstringToBytes
  dsimp only
  rw [← hval]
  generalize s.dropWhile (· = '0') = t at *
  cases t with
  | nil => exact ⟨rfl, canonicalBytes_zero⟩
  | cons c cs =>
    have hc := hhead c cs rfl
    have hcx := hx' c (by simp)
    obtain ⟨n, hn, hcn⟩ := hcx
    have hn0 : n ≠ 0 := by
      rintro rfl
      exact hc hcn
    have hcv : xdigitVal c = n := by rw [hcn, (xdigitVal_hexDigit hn).1]
    simp only [List.isEmpty_cons, Bool.false_eq_true, if_false]
    by_cases hl : (c :: cs).length % 2 = 0
    · rw [if_neg (by simpa using hl)]
      refine ⟨hexStringToBytes_val _ hl hx', ?_⟩
      cases cs with
      | nil => simp at hl
      | cons d ds =>
        refine ⟨nofun, ?_⟩
        intro b rest h _ hb
        injection h with h1 h2
        rw [hb] at h1
        have h3 := congrArg UInt8.toNat h1
        rw [UInt8.toNat_ofNat'] at h3
        have hd := isHex_lt (hx' d (by simp))
        have hz' : (0 : UInt8).toNat = 0 := rfl
        rw [hcv, hz'] at h3
        omega
    · rw [if_pos hl]
      refine ⟨hexStringToBytes_val _ (by simp only [List.length_cons] at *; omega) ?_, nofun, ?_⟩
      · intro d hd
        rcases List.mem_cons.1 hd with rfl | hd
        · exact ⟨0, by decide, rfl⟩
        · exact hx' d hd
      · intro b rest h _ hb
        injection h with h1 h2
        rw [hb] at h1
        have h3 := congrArg UInt8.toNat h1
        rw [UInt8.toNat_ofNat'] at h3
        have hz' : (0 : UInt8).toNat = 0 := rfl
        have hz'' : xdigitVal '0' = 0 := by decide
        rw [hcv, hz', hz''] at h3
        omega

theorem consumePrefix_self (p s : Str) : consumePrefix p (p ++ s) = some s := by
  unfold consumePrefix
  rw [if_pos (by simp), List.drop_left]

/-- The byte string of a bit-vector value is its canonical encoding. -/
theorem z3ToBytes_spec {w : Nat} (v : BitVec w) :
    ∃ bs, z3ToBytes (bvToString v) w = .ok bs ∧ bytesNat bs = v.toNat ∧ CanonicalBytes bs := by
  have hlt := v.isLt
  unfold bvToString z3ToBytes
  by_cases h : w % 4 = 0
  · rw [if_pos h, consumePrefix_self]
    have := hexstringToBytes_spec (hexDigits_all (w / 4) v.toNat)
    rw [hexDigits_val] at this
    have hp : 16 ^ (w / 4) = 2 ^ w := by
      have h1 : w = 4 * (w / 4) := by omega
      generalize w / 4 = m at *
      rw [h1, Nat.pow_mul]
    rw [hp, Nat.mod_eq_of_lt hlt] at this
    exact ⟨_, rfl, this⟩
  · rw [if_neg h]
    have h1 : consumePrefix c!"#x" (c!"#b" ++ bitsetToString w v.toNat) = none := by
      unfold consumePrefix
      rw [if_neg]
      simp
    rw [h1, consumePrefix_self]
    have := bitstringToBytes_spec w v.toNat
    rw [Nat.mod_eq_of_lt hlt] at this
    exact ⟨_, rfl, this⟩

/-- Canonical byte strings are as short as possible. -/
theorem canonicalBytes_length {bs : Bytes} (h : CanonicalBytes bs) : 2 ≤ bs.length → 256 ^ (bs.length - 1) ≤ bytesNat bs := by
  intro hl
  cases bs with
  | nil => cases hl
  | cons b rest =>
    have hr : rest ≠ [] := by
      rintro rfl
      simp at hl
    have hb := h.2 b rest rfl hr
    have : 1 ≤ b.toNat := by
      have : b.toNat ≠ 0 := fun h0 => hb (UInt8.toNat_inj.1 h0)
      omega
    rw [bytesNat_cons, List.length_cons, Nat.add_sub_cancel]
    have := Nat.mul_le_mul_right (256 ^ rest.length) this
    omega

theorem bytesNat_lt_pow (bs : Bytes) : bytesNat bs < 256 ^ bs.length := by
  induction bs with
  | nil => decide
  | cons b rest ih =>
    rw [bytesNat_cons, List.length_cons, Nat.pow_succ]
    have := b.toNat_lt
    have h1 : b.toNat * 256 ^ rest.length ≤ 255 * 256 ^ rest.length := Nat.mul_le_mul_right _ (by omega)
    omega

/-- The canonical encoding is unique. -/
theorem canonicalBytes_unique {a b : Bytes} (ha : CanonicalBytes a) (hb : CanonicalBytes b) (h : bytesNat a = bytesNat b) :
    a = b := by
  have hlen : a.length = b.length := by
    have la : 1 ≤ a.length := List.length_pos_iff.2 ha.1
    have lb : 1 ≤ b.length := List.length_pos_iff.2 hb.1
    rcases Nat.lt_trichotomy a.length b.length with hlt | he | hlt
    · have h1 := canonicalBytes_length hb (by omega)
      have h2 := bytesNat_lt_pow a
      have h3 : 256 ^ a.length ≤ 256 ^ (b.length - 1) := Nat.pow_le_pow_right (by decide) (by omega)
      omega
    · exact he
    · have h1 := canonicalBytes_length ha (by omega)
      have h2 := bytesNat_lt_pow b
      have h3 : 256 ^ b.length ≤ 256 ^ (a.length - 1) := Nat.pow_le_pow_right (by decide) (by omega)
      omega
  clear ha hb
  induction a generalizing b with
  | nil =>
    cases b with
    | nil => rfl
    | cons _ _ => cases hlen
  | cons x xs ih =>
    cases b with
    | nil => cases hlen
    | cons y ys =>
      rw [bytesNat_cons, bytesNat_cons] at h
      injection hlen with hlen
      have hl : ys.length = xs.length := hlen.symm
      rw [hl] at h
      have h1 := bytesNat_lt_pow xs
      have h2 := bytesNat_lt_pow ys
      rw [hl] at h2
      have hp : 0 < 256 ^ xs.length := Nat.pow_pos (by decide)
      have hx : x.toNat = y.toNat := by
        have e1 : (x.toNat * 256 ^ xs.length + bytesNat xs) / 256 ^ xs.length = x.toNat := by
          rw [Nat.mul_comm, Nat.mul_add_div hp, Nat.div_eq_of_lt h1, Nat.add_zero]
        have e2 : (y.toNat * 256 ^ xs.length + bytesNat ys) / 256 ^ xs.length = y.toNat := by
          rw [Nat.mul_comm, Nat.mul_add_div hp, Nat.div_eq_of_lt h2, Nat.add_zero]
        rw [← e1, h, e2]
      have hxy : x = y := UInt8.toNat_inj.1 hx
      subst hxy
      have : bytesNat xs = bytesNat ys := by
        rw [hx] at h
        omega
      rw [ih this hlen]

end P4C
