import Verif.Proofs.Ipv6
import Verif.Proofs.Bytes
import Verif.Proofs.Layout

namespace P4C
open Spec

/-! ### The text of an address literal -/

/-- The token that a text beginning with `(` or `)` begins with. -/
theorem chosen_paren {k : Kind} {c : Char} (hk : (k, [c]) ∈ keywords) (hc : c = '(' ∨ c = ')') (s : Str) :
    Chosen (c :: s) k [c] := by
  have hne : ∀ p : Str, p = c!"true" ∨ p = c!"false" → ¬ p <+: c :: s := by
    rintro p (rfl | rfl) hp <;> rw [List.cons_prefix_cons] at hp <;> rcases hc with rfl | rfl <;> exact absurd hp.1 (by decide)
  refine ⟨fun h => absurd h (hne _ (.inl rfl)), fun h => absurd h (hne _ (.inr rfl)), ?_⟩
  intro _ _ k' t' l' hs hp
  have hl : ¬ Letter c := by rcases hc with rfl | rfl <;> (unfold Letter; decide)
  have hd : ¬ Digit c := by rcases hc with rfl | rfl <;> (unfold Digit; decide)
  have h0 : c ≠ '0' := by rcases hc with rfl | rfl <;> decide
  have hq : c ≠ '\'' := by rcases hc with rfl | rfl <;> decide
  cases hs with
  | keyword h =>
    cases t' with
    | nil => simp
    | cons x xs =>
      rw [List.cons_prefix_cons] at hp
      have key : ∀ p ∈ keywords, p.2.head? = some '(' ∨ p.2.head? = some ')' → p.2.length = 1 := by decide
      have := key _ h (by rw [hp.1]; rcases hc with rfl | rfl <;> simp)
      exact Nat.le_of_eq this
  | id hh _ => rw [List.cons_prefix_cons] at hp; rw [hp.1] at hh; exact absurd hh hl
  | decimal hne hh =>
    cases t' with
    | nil => exact absurd rfl hne
    | cons x xs => rw [List.cons_prefix_cons] at hp; exact absurd (hp.1 ▸ hh x (by simp)) hd
  | string => rw [List.cons_prefix_cons] at hp; exact absurd hp.1.symm hq
  | _ => rw [List.cons_prefix_cons] at hp; exact absurd hp.1.symm h0

/-- The token that a quoted text begins with. -/
theorem chosen_quoted (t s : Str) : Chosen (('\'' :: (t ++ ['\''])) ++ s) .string ('\'' :: (t ++ ['\''])) := by
  have hne : ∀ p : Str, p = c!"true" ∨ p = c!"false" → ¬ p <+: '\'' :: (t ++ ['\''] ++ s) := by
    rintro p (rfl | rfl) hp <;> rw [List.cons_prefix_cons] at hp <;> exact absurd hp.1 (by decide)
  refine ⟨fun h => absurd h (hne _ (.inl rfl)), fun h => absurd h (hne _ (.inr rfl)), ?_⟩
  intro _ _ k' t' l' hs hp
  cases l' with
  | nil => simp
  | cons x xs =>
    have hx := hp
    rw [List.cons_append, List.cons_prefix_cons] at hx
    obtain ⟨rfl, hx⟩ := hx
    obtain ⟨-, u, hu, hnu, -⟩ := spells_string hs ⟨xs, rfl⟩
    injection hu with _ hu
    subst hu
    refine Nat.le_of_not_lt fun hlt => ?_
    simp only [List.length_cons, List.length_append, List.length_nil] at hlt
    have hlt' : t.length < u.length := by omega
    -- the closing quote of the shorter text would be in the longer one
    obtain ⟨w, hw⟩ := hx
    have h1 : (u ++ ['\''] ++ w)[t.length]? = some '\'' := by
      rw [hw, List.append_assoc, List.getElem?_append_right (Nat.le_refl _)]
      simp
    rw [List.append_assoc, List.getElem?_append_left hlt'] at h1
    exact hnu (List.mem_of_getElem? h1)

/-- The token that a name followed by a parenthesis begins with. -/
theorem chosen_name {c : Char} {n : Str} (h : Spells .id (c :: n) (c :: n)) (ht : ¬ c!"true" <+: c :: n)
    (hf : ¬ c!"false" <+: c :: n) (s : Str) : Chosen ((c :: n) ++ '(' :: s) .id (c :: n) := by
  have ha := chosen_alone h fun _ => ⟨ht, hf⟩
  -- a lexeme that goes beyond the name contains the parenthesis
  have hlong : ∀ {l : Str}, l <+: (c :: n) ++ '(' :: s → l <+: c :: n ∨ '(' ∈ l := by
    intro l hp
    rcases prefix_append_cases hp with h | ⟨d, hd, e, hp'⟩
    · exact .inl h
    · cases d with
      | nil => exact absurd rfl hd
      | cons x xs =>
        rw [List.cons_prefix_cons] at hp'
        rw [e, hp'.1]
        exact .inr (by simp)
  have hword : ∀ {l : Str}, (∀ x ∈ l, Letter x ∨ Digit x) → '(' ∉ l := by
    intro l h hm
    rcases h _ hm with h | h
    · revert h; unfold Letter; decide
    · revert h; unfold Digit; decide
  refine ⟨fun hp => ?_, fun hp => ?_, ?_⟩
  · rcases hlong hp with h | h
    · exact absurd h ht
    · exact absurd h (by decide)
  · rcases hlong hp with h | h
    · exact absurd h hf
    · exact absurd h (by decide)
  · intro h1 h2 k' t' l' hs hp
    rcases hlong hp with h' | h'
    · exact ha.longest h1 h2 _ _ _ hs h'
    · exfalso
      cases l' with
      | nil => simp at h'
      | cons x xs =>
        rw [List.cons_append, List.cons_prefix_cons] at hp
        obtain ⟨rfl, hp⟩ := hp
        have hl : Letter x := by cases h with | keyword h => revert h; simp [keywords] | id h _ => exact h
        cases hs with
        | keyword hk =>
          have key : ∀ p ∈ keywords, '(' ∈ p.2 → p.2 = c!"(" := by decide
          have := key _ hk h'
          simp only [List.cons.injEq] at this
          rw [this.1] at hl
          revert hl; unfold Letter; decide
        | id _ h =>
          refine hword (l := x :: xs) ?_ h'
          intro y hy
          rcases List.mem_cons.1 hy with rfl | hy
          · exact .inl hl
          · exact h y hy
        | decimal _ hd => exact hword (fun y hy => .inr (hd y hy)) h'
        | string => revert hl; unfold Letter; decide
        | _ => revert hl; unfold Letter; decide

/-- The tokens of an address literal. -/
theorem literal_tokens {ty text : Str} (hty : ty ∈ [c!"ipv4", c!"ipv6", c!"mac"]) (hr : Runes text) (hq : '\'' ∉ text) :
    tokensOf (ty ++ c!"('" ++ text ++ c!"')") =
      [(.id, ty), (.lpar, c!"("), (.string, text), (.rpar, c!")"), (.endOfInput, [])] := by
  have hid : Spells .id ty ty ∧ (∃ c n, ty = c :: n) ∧ ¬ c!"true" <+: ty ∧ ¬ c!"false" <+: ty := by
    simp only [List.mem_cons, List.not_mem_nil, or_false] at hty
    rcases hty with rfl | rfl | rfl <;>
      exact ⟨.id (by unfold Letter; decide) (by unfold Letter Digit; decide), ⟨_, _, rfl⟩, by decide, by decide⟩
  obtain ⟨h1, ⟨c, n, rfl⟩, h2, h3⟩ := hid
  have e : c :: n ++ c!"('" ++ text ++ c!"')" = (c :: n) ++ '(' :: (('\'' :: (text ++ ['\''])) ++ [')']) := by simp
  rw [e, tokensOf_tok h1 (chosen_name h1 h2 h3 _)]
  have hl : Spells .lpar ['('] ['('] := .keyword (by decide)
  have hrp : Spells .rpar [')'] [')'] := .keyword (by decide)
  have e2 := tokensOf_tok (s := ('\'' :: (text ++ ['\''])) ++ [')']) hl (chosen_paren (by decide) (.inl rfl) _)
  rw [List.cons_append, List.nil_append] at e2
  rw [e2, tokensOf_tok (.string hr hq) (chosen_quoted text _)]
  have e3 := tokensOf_tok (s := []) hrp (chosen_paren (by decide) (.inr rfl) _)
  rw [List.append_nil] at e3
  rw [e3, tokensOf_eq (l := {}) .eof]
  rfl

/-! ### Values -/

theorem hextet_lt {s : Str} {n : Nat} (h : Hextet s n) : n < 2 ^ 16 :=
  Nat.lt_of_lt_of_le (numVal_lt h.1) (Nat.pow_le_pow_right (n := 16) (by omega) h.2)

theorem groups_lt {s : Str} {ns : List Nat} (h : Groups s ns) : ∀ n ∈ ns, n < 2 ^ 16 := by
  induction h with
  | one h => intro n hn; rw [List.mem_singleton.1 hn]; exact hextet_lt h
  | dotted ha hb hc hd =>
    intro n hn
    have := ha.2; have := hb.2; have := hc.2; have := hd.2
    simp only [List.mem_cons, List.not_mem_nil, or_false] at hn
    omega
  | cons h _ ih =>
    intro n hn
    rcases List.mem_cons.1 hn with rfl | hn
    · exact hextet_lt h
    · exact ih n hn

theorem hextets_lt {s : Str} {ns : List Nat} (h : Hextets s ns) : ∀ n ∈ ns, n < 2 ^ 16 := by
  induction h with
  | one h => intro n hn; rw [List.mem_singleton.1 hn]; exact hextet_lt h
  | cons h _ ih =>
    intro n hn
    rcases List.mem_cons.1 hn with rfl | hn
    · exact hextet_lt h
    · exact ih n hn

theorem ipv6_groups {s : Str} {ns : List Nat} (h : Ipv6Text s ns) : ns.length = 8 ∧ ∀ n ∈ ns, n < 2 ^ 16 := by
  cases h with
  | full h hl => exact ⟨hl, groups_lt h⟩
  | short ha hb hk hl =>
    refine ⟨by simp; omega, ?_⟩
    intro n hn
    rw [List.mem_append, List.mem_append] at hn
    rcases hn with (hn | hn) | hn
    · rcases ha with ⟨rfl, rfl⟩ | ha
      · cases hn
      · exact hextets_lt ha n hn
    · rw [List.eq_of_mem_replicate hn]; decide
    · rcases hb with ⟨rfl, rfl⟩ | hb
      · cases hn
      · exact groups_lt hb n hn

theorem bytesNat_groups : ∀ {ns : List Nat} (v : Nat), (∀ n ∈ ns, n < 2 ^ 16) →
    ns.foldl (fun v n => v * 2 ^ 16 + n) v = v * 256 ^ (groupBytes ns).length + bytesNat (groupBytes ns)
  | [], v, _ => by simp [groupBytes, bytesNat]
  | n :: ns, v, h => by
    have hn := h n (by simp)
    rw [List.foldl_cons, bytesNat_groups _ fun m hm => h m (by simp [hm]), groupBytes_cons]
    simp only [List.cons_append, List.nil_append, bytesNat_cons, List.length_cons]
    rw [show (UInt8.ofNat (n / 256)).toNat = n / 256 by rw [UInt8.toNat_ofNat']; omega,
      show (UInt8.ofNat (n % 256)).toNat = n % 256 by rw [UInt8.toNat_ofNat']; omega]
    generalize bytesNat (groupBytes ns) = y
    have hp : ∀ k, 256 ^ (k + 1) = 256 * 256 ^ k := fun k => by rw [Nat.pow_succ, Nat.mul_comm]
    simp only [hp]
    generalize 256 ^ (groupBytes ns).length = x
    have hd : n = n / 256 * 256 + n % 256 := by omega
    generalize n / 256 = a at *
    generalize n % 256 = b at *
    subst hd
    grind

theorem groupsNat_eq {ns : List Nat} (h : ∀ n ∈ ns, n < 2 ^ 16) : groupsNat ns = bytesNat (groupBytes ns) := by
  unfold groupsNat
  rw [bytesNat_groups 0 h, Nat.zero_mul, Nat.zero_add]

theorem groupBytes_inj : ∀ {ms ns : List Nat}, (∀ n ∈ ms, n < 2 ^ 16) → (∀ n ∈ ns, n < 2 ^ 16) → groupBytes ms = groupBytes ns → ms = ns
  | [], [], _, _, _ => rfl
  | [], _ :: _, _, _, h => by rw [groupBytes_cons] at h; cases h
  | _ :: _, [], _, _, h => by rw [groupBytes_cons] at h; cases h
  | m :: ms, n :: ns, hm, hn, h => by
    rw [groupBytes_cons, groupBytes_cons] at h
    simp only [List.cons_append, List.nil_append, List.cons.injEq] at h
    obtain ⟨h1, h2, h3⟩ := h
    have a := hm m (by simp)
    have b := hn n (by simp)
    have h1 := congrArg UInt8.toNat h1
    have h2 := congrArg UInt8.toNat h2
    rw [UInt8.toNat_ofNat', UInt8.toNat_ofNat'] at h1 h2
    rw [show m = n by omega, groupBytes_inj (fun k hk => hm k (by simp [hk])) (fun k hk => hn k (by simp [hk])) h3]

/-- The values of IPv6 literals. -/
theorem address_ipv6 {s : Str} {n : Nat} : Address glibc.inetPton6 c!"ipv6" s n ↔
    ∃ ns, Ipv6Text (s.takeWhile (· ≠ '\x00')) ns ∧ n = groupsNat ns := by
  have hlt : ∀ {t : Str} {ns : List Nat}, Ipv6Text t ns → bytesNat (groupBytes ns) < 2 ^ 128 := by
    intro t ns h
    have := bytesNat_lt_pow (groupBytes ns)
    rw [groupBytes_length, (ipv6_groups h).1] at this
    exact this
  constructor
  · intro h
    cases h with
    | ipv6 h =>
      obtain ⟨ns, h1, rfl⟩ := inetPton6_iff.1 h
      exact ⟨ns, h1, by rw [groupsNat_eq (ipv6_groups h1).2, Nat.mod_eq_of_lt (hlt h1)]⟩
  · rintro ⟨ns, h1, rfl⟩
    have := Address.ipv6 (pton := glibc.inetPton6) (s := s) (inetPton6_iff.2 ⟨ns, h1, rfl⟩)
    rwa [Nat.mod_eq_of_lt (hlt h1), ← groupsNat_eq (ipv6_groups h1).2] at this

end P4C
