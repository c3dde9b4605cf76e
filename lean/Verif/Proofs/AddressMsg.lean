import Verif.Spec.Diagnosis
import Verif.Proofs.Message
import Verif.Proofs.Address
import Verif.Proofs.Quotation

/-!
# Messages about malformed addresses
-/

namespace P4C

open Spec MRes

theorem canonical_natDec {s : Str} {n : Nat} : Canonical s n ↔ s = natDec n := by
  constructor
  · intro h
    exact (numeral_iff (z := (n : Int)) (by omega)).1 ⟨_, rfl, h⟩
  · rintro rfl
    exact natDec_canonical n

theorem erased_ok {α : Type} {r : MRes α} {a : α} (h : r.erase = .ok a) : r = .ok a := by
  cases r <;> cases h; rfl

theorem digit10_iff {c : Char} : DigitOf 10 c ↔ ¬ (c.toNat > 57 ∨ c.toNat < 48) := by
  constructor
  · rintro ⟨d, hd, hlt⟩
    have := base10_digit hd hlt
    grind
  · intro h
    obtain ⟨d, hd⟩ := hexDigit_digits (c := c) (.inl ⟨show (48 : Nat) ≤ c.toNat by omega, show c.toNat ≤ (57 : Nat) by omega⟩)
    exact ⟨d, hd, by rw [digit_val hd (by omega)]; omega⟩

theorem digit16_iff {c : Char} : DigitOf 16 c ↔ isXDigit c = true := by
  constructor
  · rintro ⟨d, hd, _⟩
    exact (base16_digit hd).1
  · intro h
    obtain ⟨d, hd⟩ := hexDigit_digits (isHex_hexDigit h)
    exact ⟨d, hd, (digits_facts hd).2.2.2.2.2⟩

theorem loop10M_err {all : Str} {c : Code} {m : Str} : ∀ {s : Str} {acc : Nat}, base10LoopM all acc s = .err c m ↔
    c = .invalidArgument ∧ ∃ a d b, s = a ++ d :: b ∧ (∀ e ∈ a, DigitOf 10 e) ∧ ¬ DigitOf 10 d ∧
      m = c!"Invalid character in base-10 string: '" ++ [d] ++ c!"' in string '" ++ all ++ c!"'"
  | [], acc => by simp [base10LoopM]
  | e :: s, acc => by
    unfold base10LoopM
    by_cases h : DigitOf 10 e
    · rw [if_neg (digit10_iff.1 h), loop10M_err (s := s)]
      constructor
      · rintro ⟨hc, a, d, b, rfl, h1, h2, h3⟩
        exact ⟨hc, e :: a, d, b, rfl, by simpa using ⟨h, h1⟩, h2, h3⟩
      · rintro ⟨hc, a, d, b, e1, h1, h2, h3⟩
        cases a with
        | nil => cases e1; exact absurd h h2
        | cons a0 a => cases e1; exact ⟨hc, a, d, b, rfl, fun e he => h1 e (by simp [he]), h2, h3⟩
    · rw [if_pos (Decidable.not_not.1 (mt digit10_iff.2 h))]
      constructor
      · intro h'
        cases h'
        exact ⟨rfl, [], e, s, rfl, by simp, h, rfl⟩
      · rintro ⟨rfl, a, d, b, e1, h1, h2, rfl⟩
        cases a with
        | nil => cases e1; rfl
        | cons a0 a => cases e1; exact absurd (h1 e (by simp)) h

theorem loop16M_err {all : Str} {c : Code} {m : Str} : ∀ {s : Str} {acc : Nat}, base16LoopM all acc s = .err c m ↔
    c = .invalidArgument ∧ ∃ a d b, s = a ++ d :: b ∧ (∀ e ∈ a, DigitOf 16 e) ∧ ¬ DigitOf 16 d ∧
      m = c!"Invalid character in base16 string: '" ++ [d] ++ c!"' in string '" ++ all ++ c!"'"
  | [], acc => by simp [base16LoopM]
  | e :: s, acc => by
    unfold base16LoopM
    by_cases h : DigitOf 16 e
    · rw [if_neg (by simpa using digit16_iff.1 h), loop16M_err (s := s)]
      constructor
      · rintro ⟨hc, a, d, b, rfl, h1, h2, h3⟩
        exact ⟨hc, e :: a, d, b, rfl, by simpa using ⟨h, h1⟩, h2, h3⟩
      · rintro ⟨hc, a, d, b, e1, h1, h2, h3⟩
        cases a with
        | nil => cases e1; exact absurd h h2
        | cons a0 a => cases e1; exact ⟨hc, a, d, b, rfl, fun e he => h1 e (by simp [he]), h2, h3⟩
    · rw [if_pos (by simpa using mt digit16_iff.2 h)]
      constructor
      · intro h'
        cases h'
        exact ⟨rfl, [], e, s, rfl, by simp, h, rfl⟩
      · rintro ⟨rfl, a, d, b, e1, h1, h2, rfl⟩
        cases a with
        | nil => cases e1; rfl
        | cons a0 a => cases e1; exact absurd (h1 e (by simp)) h

theorem base10M_err {s : Str} {c : Code} {m : Str} :
    base10StringToByteM s = .err c m ↔ c = .invalidArgument ∧ OctetFault s m := by
  unfold base10StringToByteM
  have hlen : (s.isEmpty = true ∨ s.length > 3) ↔ (s = [] ∨ 3 < s.length) := by simp
  constructor
  · intro h
    split at h
    · rename_i hl
      cases h
      exact ⟨rfl, .length (hlen.1 hl) (natDec_canonical _)⟩
    · rename_i hl
      rw [hlen] at hl
      cases hr : base10LoopM s 0 s with
      | ok v =>
        rw [hr] at h
        have he := erase_base10Loop s 0 s
        rw [hr] at he
        obtain ⟨n, hn⟩ := numVal_exists (fun e => hl (.inl e)) (base10Loop_chars he.symm)
        rw [base10Loop_val hn] at he
        cases he
        rw [ok_bind] at h
        split at h
        · cases h
          exact ⟨rfl, .value (by omega) hn (by assumption) (natDec_canonical _)⟩
        · cases h
      | err c' m' =>
        rw [hr] at h
        cases h
        obtain ⟨hc, a, d, b, rfl, h1, h2, rfl⟩ := loop10M_err.1 hr
        exact ⟨hc, .character (by omega) h1 h2⟩
      | crash => rw [hr] at h; cases h
      | oof => rw [hr] at h; cases h
  · rintro ⟨rfl, h⟩
    cases h with
    | length hl hn => rw [if_pos (hlen.2 hl), canonical_natDec.1 hn]
    | character hl h1 h2 =>
      rw [if_neg (by simp; simp at hl; omega), loop10M_err.2 ⟨rfl, _, _, _, rfl, h1, h2, rfl⟩]
      rfl
    | value hl hn hv hc =>
      rw [if_neg (mt hlen.1 (by have := hn.ne_nil; simp [this]; omega)),
        erased_ok ((erase_base10Loop _ _ _).trans (base10Loop_val hn)), ok_bind, if_pos hv, canonical_natDec.1 hc]

theorem base16M_err {s : Str} {c : Code} {m : Str} :
    base16StringToByteM s = .err c m ↔ c = .invalidArgument ∧ HexByteFault s m := by
  unfold base16StringToByteM
  have hlen : (s.isEmpty = true ∨ s.length > 2) ↔ (s = [] ∨ 2 < s.length) := by simp
  constructor
  · intro h
    split at h
    · rename_i hl
      cases h
      exact ⟨rfl, .length (hlen.1 hl) (natDec_canonical _)⟩
    · rename_i hl
      rw [hlen] at hl
      obtain ⟨hc, a, d, b, rfl, h1, h2, rfl⟩ := loop16M_err.1 h
      exact ⟨hc, .character (by omega) h1 h2⟩
  · rintro ⟨rfl, h⟩
    cases h with
    | length hl hn => rw [if_pos (hlen.2 hl), canonical_natDec.1 hn]
    | character hl h1 h2 =>
      rw [if_neg (by simp; simp at hl; omega), loop16M_err.2 ⟨rfl, _, _, _, rfl, h1, h2, rfl⟩]

theorem base10M_ok {s : Str} {n : Nat} : base10StringToByteM s = .ok n ↔ Octet s n := by
  rw [← base10_iff, ← erase_base10]
  exact ⟨fun h => by rw [h]; rfl, erased_ok⟩

theorem base16M_ok {s : Str} {n : Nat} : base16StringToByteM s = .ok n ↔ HexByte s n := by
  rw [← base16_iff, ← erase_base16]
  exact ⟨fun h => by rw [h]; rfl, erased_ok⟩

theorem addressLoopM_err {conv : Str → MRes Nat} {n : Nat} {c : Code} {m : Str} : ∀ {ss : List Str} {bits : Nat},
    addressLoopM conv n bits ss = .err c m ↔
      ∃ a p b, ss = a ++ p :: b ∧ (∀ q ∈ a, ∃ v, conv q = .ok v) ∧ conv p = .err c m
  | [], bits => by simp [addressLoopM]
  | s :: ss, bits => by
    unfold addressLoopM
    cases hs : conv s with
    | ok v =>
      rw [ok_bind, addressLoopM_err (ss := ss)]
      constructor
      · rintro ⟨a, p, b, rfl, h1, h2⟩
        exact ⟨s :: a, p, b, rfl, by simpa using ⟨⟨v, hs⟩, h1⟩, h2⟩
      · rintro ⟨a, p, b, e, h1, h2⟩
        cases a with
        | nil => cases e; rw [hs] at h2; cases h2
        | cons a0 a => cases e; exact ⟨a, p, b, rfl, fun q hq => h1 q (by simp [hq]), h2⟩
    | err c' m' =>
      rw [err_bind]
      constructor
      · intro h
        cases h
        exact ⟨[], s, ss, rfl, by simp, hs⟩
      · rintro ⟨a, p, b, e, h1, h2⟩
        cases a with
        | nil => cases e; rw [hs] at h2; exact h2
        | cons a0 a =>
          cases e
          obtain ⟨v, hv⟩ := h1 s (by simp)
          rw [hs] at hv; cases hv
    | crash =>
      refine ⟨(fun h => by cases h), ?_⟩
      rintro ⟨a, p, b, e, h1, h2⟩
      cases a with
      | nil => cases e; rw [hs] at h2; cases h2
      | cons a0 a => cases e; obtain ⟨v, hv⟩ := h1 s (by simp); rw [hs] at hv; cases hv
    | oof =>
      refine ⟨(fun h => by cases h), ?_⟩
      rintro ⟨a, p, b, e, h1, h2⟩
      cases a with
      | nil => cases e; rw [hs] at h2; cases h2
      | cons a0 a => cases e; obtain ⟨v, hv⟩ := h1 s (by simp); rw [hs] at hv; cases hv

theorem strSplit_no_sep {sep : Char} : ∀ (s : Str), ∀ p ∈ strSplit sep s, sep ∉ p
  | [] => by simp [strSplit]
  | c :: cs => by
    have ih := strSplit_no_sep (sep := sep) cs
    unfold strSplit
    by_cases h : c = sep
    · rw [if_pos h]
      intro p hp
      rcases List.mem_cons.1 hp with rfl | hp
      · simp
      · exact ih p hp
    · rw [if_neg h]
      cases hq : strSplit sep cs with
      | nil => simp [Ne.symm h]
      | cons q qs =>
        rw [hq] at ih
        intro p hp
        rcases List.mem_cons.1 hp with rfl | hp
        · have := ih q (by simp)
          simp [this, Ne.symm h]
        · exact ih p (by simp [hp])

theorem strSplit_join {sep : Char} : ∀ {ps : List Str} {s : Str}, strSplit sep s = ps → s = join [sep] ps
  | [], s, h => absurd h (strSplit_ne_nil _ _)
  | [p], s, h => strSplit_last h
  | p :: q :: ps, s, h => by
    obtain ⟨t, rfl, ht⟩ := strSplit_more h
    rw [strSplit_join ht]
    simp [join]

theorem join_split {sep : Char} : ∀ {ps : List Str}, ps ≠ [] → (∀ p ∈ ps, sep ∉ p) → strSplit sep (join [sep] ps) = ps
  | [], h, _ => absurd rfl h
  | [p], _, h => strSplit_self (h p (by simp))
  | p :: q :: ps, _, h => by
    show strSplit sep (p ++ [sep] ++ join [sep] (q :: ps)) = _
    rw [List.append_assoc, List.singleton_append, strSplit_cons (h p (by simp)),
      join_split (by simp) fun r hr => h r (by simp [hr])]

theorem parts_iff {sep : Char} {ps : List Str} {s : Str} : Parts sep s ps ↔ strSplit sep s = ps := by
  constructor
  · rintro ⟨h1, h2, rfl⟩
    exact join_split h1 h2
  · intro h
    exact ⟨by rw [← h]; exact strSplit_ne_nil _ _, by rw [← h]; exact strSplit_no_sep s, strSplit_join h⟩

theorem ipv4M_err {pton : Str → Option Bytes} {s : Str} {c : Code} {m : Str} :
    ipv4StringToByteStringM s = .err c m ↔ c = .invalidArgument ∧ AddressFault pton c!"ipv4" s m := by
  unfold ipv4StringToByteStringM
  dsimp only
  constructor
  · intro h
    split at h
    · rename_i hl
      cases h
      exact ⟨rfl, .ipv4Length (parts_iff.2 rfl) hl⟩
    · rename_i hl
      cases hr : addressLoopM base10StringToByteM 32 0 (strSplit '.' s) with
      | err c' m' =>
        rw [hr] at h
        cases h
        obtain ⟨a, p, b, e, h1, h2⟩ := addressLoopM_err.1 hr
        obtain ⟨hc, hf⟩ := base10M_err.1 h2
        exact ⟨hc, .ipv4Part (parts_iff.2 e) (by rw [← e]; omega) (fun q hq => (h1 q hq).imp fun _ => base10M_ok.1) hf⟩
      | ok v => rw [hr] at h; cases h
      | crash => rw [hr] at h; cases h
      | oof => rw [hr] at h; cases h
  · rintro ⟨rfl, h⟩
    generalize ht : c!"ipv4" = i at h
    cases h with
    | type h => exact absurd ht.symm h
    | ipv6 => cases ht
    | macLength => cases ht
    | macPart => cases ht
    | ipv4Length hp hl => rw [if_pos (by rw [parts_iff.1 hp]; exact hl)]
    | ipv4Part hp hl h1 h2 =>
      rw [if_neg (by rw [parts_iff.1 hp]; omega), parts_iff.1 hp,
        addressLoopM_err (conv := base10StringToByteM) |>.2 ⟨_, _, _, rfl, fun q hq => (h1 q hq).imp fun _ => base10M_ok.2, base10M_err.2 ⟨rfl, h2⟩⟩]
      rfl

theorem macM_err {pton : Str → Option Bytes} {s : Str} {c : Code} {m : Str} :
    macStringToByteStringM s = .err c m ↔ c = .invalidArgument ∧ AddressFault pton c!"mac" s m := by
  unfold macStringToByteStringM
  dsimp only
  constructor
  · intro h
    split at h
    · rename_i hl
      cases h
      exact ⟨rfl, .macLength (parts_iff.2 rfl) hl⟩
    · rename_i hl
      cases hr : addressLoopM base16StringToByteM 48 0 (strSplit ':' s) with
      | err c' m' =>
        rw [hr] at h
        cases h
        obtain ⟨a, p, b, e, h1, h2⟩ := addressLoopM_err.1 hr
        obtain ⟨hc, hf⟩ := base16M_err.1 h2
        exact ⟨hc, .macPart (parts_iff.2 e) (by rw [← e]; omega) (fun q hq => (h1 q hq).imp fun _ => base16M_ok.1) hf⟩
      | ok v => rw [hr] at h; cases h
      | crash => rw [hr] at h; cases h
      | oof => rw [hr] at h; cases h
  · rintro ⟨rfl, h⟩
    generalize ht : c!"mac" = i at h
    cases h with
    | type _ _ h => exact absurd ht.symm h
    | ipv6 => cases ht
    | ipv4Length => cases ht
    | ipv4Part => cases ht
    | macLength hp hl => rw [if_pos (by rw [parts_iff.1 hp]; exact hl)]
    | macPart hp hl h1 h2 =>
      rw [if_neg (by rw [parts_iff.1 hp]; omega), parts_iff.1 hp,
        addressLoopM_err (conv := base16StringToByteM) |>.2 ⟨_, _, _, rfl, fun q hq => (h1 q hq).imp fun _ => base16M_ok.2, base16M_err.2 ⟨rfl, h2⟩⟩]
      rfl

theorem ipv6M_err {sys : Sys} {s : Str} {c : Code} {m : Str} :
    ipv6StringToByteStringM sys s = .err c m ↔ c = .invalidArgument ∧ AddressFault sys.inetPton6 c!"ipv6" s m := by
  unfold ipv6StringToByteStringM
  have e : s.takeWhile (· ≠ '\x00') = cstr s := cstr_eq s
  constructor
  · intro h
    cases hp : sys.inetPton6 (cstr s) with
    | none => rw [hp] at h; cases h; exact ⟨rfl, .ipv6 (by rw [e]; exact hp)⟩
    | some b => rw [hp] at h; cases h
  · rintro ⟨rfl, h⟩
    generalize ht : c!"ipv6" = i at h
    cases h with
    | type _ h _ => exact absurd ht.symm h
    | ipv4Length => cases ht
    | ipv4Part => cases ht
    | macLength => cases ht
    | macPart => cases ht
    | ipv6 h => rw [e] at h; rw [h]

/-- The message about a malformed address. -/
theorem addressM_err {x : Texts} {sys : Sys} {i s : Str} {a b : Loc} {c : Code} {m : Str} :
    makeNetworkAddressM x sys i s a b = .err c m ↔ c = .invalidArgument ∧ AddressFault sys.inetPton6 i s m := by
  have step : ∀ {r : MRes Str}, (∀ bits, r = .ok bits → ∃ t, convertNumeralM x .binary bits = .ok t) →
      ((do let bits ← r; let t ← convertNumeralM x .binary bits; .ok (.intConst (located a b) t)) = (.err c m : MRes Expr) ↔
        r = .err c m) := by
    intro r hr
    cases r with
    | ok bits =>
      obtain ⟨t, ht⟩ := hr bits rfl
      simp [ht]
    | err => simp
    | crash => simp
    | oof => simp
  unfold makeNetworkAddressM
  by_cases h4 : i = c!"ipv4"
  · subst h4
    rw [if_pos rfl, ← ipv4M_err]
    apply step
    intro bits hb
    obtain ⟨a, b, c, d, m, n, p, q, h1, h2, h3, h4, e, rfl⟩ := ipv4_iff.1 (by rw [← erase_ipv4, hb]; rfl)
    exact ⟨_, erased_ok ((erase_convertNumeral _ _ _).trans (convert_small (ipv4_lt h1 h2 h3 h4)))⟩
  rw [if_neg h4]
  by_cases h6 : i = c!"ipv6"
  · subst h6
    rw [if_pos rfl, ← ipv6M_err]
    apply step
    intro bits hb
    unfold ipv6StringToByteStringM at hb
    split at hb
    · rename_i bytes _
      cases hb
      have e : convertNumeral .binary (bitsetToString 128 (anyByteStringToBitset 128 bytes)) =
          .ok (natDec (bytesNat bytes % 2 ^ 128)) := by
        rw [anyByteStringToBitset_eq (by decide)]
        exact convert_small (n := 127) (Nat.mod_lt _ (Nat.two_pow_pos _))
      exact ⟨_, erased_ok ((erase_convertNumeral _ _ _).trans e)⟩
    · cases hb
  rw [if_neg h6]
  by_cases hm : i = c!"mac"
  · subst hm
    rw [if_pos rfl, ← macM_err]
    apply step
    intro bits hb
    obtain ⟨a, b, c, d, e, f, m, n, p, q, r, u, h1, h2, h3, h4, h5, h6, ee, rfl⟩ :=
      mac_iff.1 (by rw [← erase_mac, hb]; rfl)
    exact ⟨_, erased_ok ((erase_convertNumeral _ _ _).trans (convert_small (mac_lt h1 h2 h3 h4 h5 h6)))⟩
  rw [if_neg hm]
  constructor
  · intro h
    cases h
    exact ⟨rfl, .type h4 h6 hm⟩
  · rintro ⟨rfl, h⟩
    cases h with
    | type => rfl
    | ipv4Length => exact absurd rfl h4
    | ipv4Part => exact absurd rfl h4
    | ipv6 => exact absurd rfl h6
    | macLength => exact absurd rfl hm
    | macPart => exact absurd rfl hm

/-- A malformed address is not an address, and there is one message about it. -/
theorem addressFault_not {pton : Str → Option Bytes} {i s m : Str} (h : AddressFault pton i s m) :
    (∀ n, ¬ Address pton i s n) ∧ ∀ m', AddressFault pton i s m' → m' = m := by
  have e := addressM_err (x := ⟨fun _ _ _ => [], [], fun _ => [], fun _ => [], fun _ => [], fun _ => [], fun _ => [], fun _ => [], fun _ => []⟩)
    (sys := ⟨pton⟩) (a := {}) (b := {}) |>.2 ⟨rfl, h⟩
  refine ⟨fun n hn => ?_, fun m' h' => ?_⟩
  · have := (address_iff (sys := ⟨pton⟩) (a := {}) (b := {})).2 ⟨n, hn, rfl⟩
    rw [← erase_makeNetworkAddress, e] at this
    cases this
  · have e' := addressM_err (x := ⟨fun _ _ _ => [], [], fun _ => [], fun _ => [], fun _ => [], fun _ => [], fun _ => [], fun _ => [], fun _ => []⟩)
      (sys := ⟨pton⟩) (a := {}) (b := {}) |>.2 ⟨rfl, h'⟩
    rw [e] at e'
    cases e'
    rfl

end P4C
