import Verif.Props.Numerals
import Verif.Proofs.Ipv6Text

namespace P4C
open Spec

/-- C27 for texts. The text of an address literal is parsed to its value if it has one, and rejected otherwise. -/
theorem C27_literal {sys : Sys} {k : ConstraintKind} {l : Loc} {ty text : Str} (hty : ty ∈ [c!"ipv4", c!"ipv6", c!"mac"])
    (hr : Runes text) (hq : '\'' ∉ text) :
    (∃ n e, Address sys.inetPton6 ty text n ∧ parseConstraint sys k ⟨ty ++ c!"('" ++ text ++ c!"')", l⟩ = .ok e ∧
      abs e = some (.int n)) ∨
    ((∀ n, ¬ Address sys.inetPton6 ty text n) ∧
      parseConstraint sys k ⟨ty ++ c!"('" ++ text ++ c!"')", l⟩ = .err .invalidArgument) := by
  refine C27_address ?_
  rw [tokens_src]
  exact literal_tokens hty hr hq

theorem takeWhile_noNul : ∀ {text : Str}, '\x00' ∉ text → text.takeWhile (· ≠ '\x00') = text
  | [], _ => rfl
  | c :: text, h => by
    have hc : c ≠ '\x00' := fun e => h (by simp [e])
    rw [List.takeWhile_cons_of_pos (by simpa using hc), takeWhile_noNul fun hm => h (List.mem_cons_of_mem _ hm)]

/-- C74: the literal `ipv6('text')` denotes the address that `text` stands for in the notation of RFC 4291, and is rejected
with InvalidArgument if `text` is not in this notation. Only shown for texts without NUL characters. -/
theorem C74_literal_partial {k : ConstraintKind} {l : Loc} {text : Str} (hr : Runes text) (hq : '\'' ∉ text)
    (h0 : '\x00' ∉ text) :
    (∃ ns e, Ipv6Text text ns ∧ parseConstraint glibc k ⟨c!"ipv6('" ++ text ++ c!"')", l⟩ = .ok e ∧
      abs e = some (.int (groupsNat ns))) ∨
    ((∀ ns, ¬ Ipv6Text text ns) ∧ parseConstraint glibc k ⟨c!"ipv6('" ++ text ++ c!"')", l⟩ = .err .invalidArgument) := by
  rcases C27_literal (sys := glibc) (k := k) (l := l) (ty := c!"ipv6") (by decide) hr hq with ⟨n, e, h1, h2, h3⟩ | ⟨h1, h2⟩
  · obtain ⟨ns, h4, rfl⟩ := address_ipv6.1 h1
    rw [takeWhile_noNul h0] at h4
    exact .inl ⟨ns, e, h4, h2, h3⟩
  · refine .inr ⟨fun ns h => h1 _ (address_ipv6.2 ⟨ns, ?_, rfl⟩), h2⟩
    rwa [takeWhile_noNul h0]

/-- What exactly is accepted: a text with a NUL character is read up to that character. -/
theorem C74_exact {k : ConstraintKind} {l : Loc} {text : Str} (hr : Runes text) (hq : '\'' ∉ text) :
    (∃ ns e, Ipv6Text (text.takeWhile (· ≠ '\x00')) ns ∧
      parseConstraint glibc k ⟨c!"ipv6('" ++ text ++ c!"')", l⟩ = .ok e ∧ abs e = some (.int (groupsNat ns))) ∨
    ((∀ ns, ¬ Ipv6Text (text.takeWhile (· ≠ '\x00')) ns) ∧
      parseConstraint glibc k ⟨c!"ipv6('" ++ text ++ c!"')", l⟩ = .err .invalidArgument) := by
  rcases C27_literal (sys := glibc) (k := k) (l := l) (ty := c!"ipv6") (by decide) hr hq with ⟨n, e, h1, h2, h3⟩ | ⟨h1, h2⟩
  · obtain ⟨ns, h4, rfl⟩ := address_ipv6.1 h1
    exact .inl ⟨ns, e, h4, h2, h3⟩
  · exact .inr ⟨fun ns h => h1 _ (address_ipv6.2 ⟨ns, h, rfl⟩), h2⟩

/-- C74: a text has at most one meaning. -/
theorem C74_unique {text : Str} {ms ns : List Nat} (h : Ipv6Text text ms) (h' : Ipv6Text text ns) : ms = ns := by
  have a := inetPton6_iff.2 ⟨ms, h, rfl⟩
  rw [inetPton6_iff.2 ⟨ns, h', rfl⟩] at a
  exact (groupBytes_inj (ipv6_groups h').2 (ipv6_groups h).2 (Option.some.inj a)).symm

/-- C74: the meaning consists of eight numbers of 16 bits each, and the value is a number of 128 bits from which they can be
recovered. -/
theorem C74_range {text : Str} {ns : List Nat} (h : Ipv6Text text ns) :
    ns.length = 8 ∧ (∀ n ∈ ns, n < 2 ^ 16) ∧ groupsNat ns < 2 ^ 128 ∧
      ∀ i, i < 8 → ns[i]? = some (groupsNat ns / 2 ^ (16 * (7 - i)) % 2 ^ 16) := by
  obtain ⟨h1, h2⟩ := ipv6_groups h
  match ns, h1, h2 with
  | [a, b, c, d, e, f, g, i], _, h2 =>
    simp only [List.mem_cons, List.not_mem_nil, or_false, forall_eq_or_imp, forall_eq] at h2
    refine ⟨rfl, by simpa using h2, ?_, ?_⟩
    · simp only [groupsNat, List.foldl_cons, List.foldl_nil]
      omega
    · intro j hj
      simp only [groupsNat, List.foldl_cons, List.foldl_nil]
      match j, hj with
      | 0, _ | 1, _ | 2, _ | 3, _ | 4, _ | 5, _ | 6, _ | 7, _ =>
        simp only [List.getElem?_cons_zero, List.getElem?_cons_succ, Option.some.injEq]
        omega

/-- The four digits of a group. -/
theorem hextet_exists {n : Nat} (h : n < 2 ^ 16) : ∃ s, Hextet s n ∧ ∀ c ∈ s, c ∈ digits.map Prod.fst := by
  have hd : ∀ d, d < 16 → ∃ c, (c, d) ∈ digits := by
    intro d hd
    have key : ∀ d : Fin 16, ∃ p ∈ digits, p.2 = d.1 := by decide
    obtain ⟨⟨c, _⟩, h1, rfl⟩ := key ⟨d, hd⟩
    exact ⟨c, h1⟩
  obtain ⟨a, ha⟩ := hd (n / 4096) (by omega)
  obtain ⟨b, hb⟩ := hd (n / 256 % 16) (by omega)
  obtain ⟨c, hc⟩ := hd (n / 16 % 16) (by omega)
  obtain ⟨d, hd⟩ := hd (n % 16) (by omega)
  have := ((NumVal.one (b := 16) ha (by omega)).snoc hb (by omega)).snoc hc (by omega) |>.snoc hd (by omega)
  rw [show ((n / 4096 * 16 + n / 256 % 16) * 16 + n / 16 % 16) * 16 + n % 16 = n by omega] at this
  refine ⟨_, ⟨this, by simp⟩, ?_⟩
  intro x hx
  simp only [List.mem_append, List.mem_singleton] at hx
  rcases hx with ((rfl | rfl) | rfl) | rfl
  · exact List.mem_map.2 ⟨_, ha, rfl⟩
  · exact List.mem_map.2 ⟨_, hb, rfl⟩
  · exact List.mem_map.2 ⟨_, hc, rfl⟩
  · exact List.mem_map.2 ⟨_, hd, rfl⟩

theorem groups_exists : ∀ {ns : List Nat}, ns ≠ [] → (∀ n ∈ ns, n < 2 ^ 16) →
    ∃ s, Groups s ns ∧ ∀ c ∈ s, c = ':' ∨ c ∈ digits.map Prod.fst
  | [], h, _ => absurd rfl h
  | [n], _, h => by
    obtain ⟨s, h1, h2⟩ := hextet_exists (h n (by simp))
    exact ⟨s, .one h1, fun c hc => .inr (h2 c hc)⟩
  | n :: m :: ns, _, h => by
    obtain ⟨s, h1, h2⟩ := hextet_exists (h n (by simp))
    obtain ⟨t, h3, h4⟩ := groups_exists (ns := m :: ns) (by simp) fun k hk => h k (List.mem_cons_of_mem _ hk)
    refine ⟨_, .cons h1 h3, ?_⟩
    intro c hc
    simp only [List.mem_append, List.mem_singleton] at hc
    rcases hc with (hc | hc) | hc
    · exact .inr (h2 c hc)
    · exact .inl hc
    · exact h4 c hc

theorem split_groups : ∀ (k : Nat) {n : Nat}, n < (2 ^ 16) ^ k → ∃ ns : List Nat, ns.length = k ∧ (∀ m ∈ ns, m < 2 ^ 16) ∧ groupsNat ns = n
  | 0, n, h => ⟨[], rfl, by simp, by simp [groupsNat]; omega⟩
  | k + 1, n, h => by
    rw [Nat.pow_succ] at h
    obtain ⟨ns, h1, h2, h3⟩ := split_groups k (n := n / 2 ^ 16) (Nat.div_lt_of_lt_mul (by rwa [Nat.mul_comm]))
    refine ⟨ns ++ [n % 2 ^ 16], by simp [h1], ?_, ?_⟩
    · intro m hm
      rcases List.mem_append.1 hm with hm | hm
      · exact h2 m hm
      · rw [List.mem_singleton.1 hm]; omega
    · unfold groupsNat at h3 ⊢
      rw [List.foldl_append, h3]
      simp only [List.foldl_cons, List.foldl_nil]
      omega

/-- C74: every number of 128 bits can be written as an IPv6 literal. -/
theorem C74_every {k : ConstraintKind} {l : Loc} {n : Nat} (hn : n < 2 ^ 128) :
    ∃ text e, parseConstraint glibc k ⟨c!"ipv6('" ++ text ++ c!"')", l⟩ = .ok e ∧ abs e = some (.int n) := by
  obtain ⟨ns, h7, h8, h9⟩ := split_groups 8 (n := n) hn
  obtain ⟨s, h1, h2⟩ := groups_exists (fun e => by rw [e] at h7; cases h7) h8
  have h3 := Ipv6Text.full h1 h7
  have ha : ∀ c ∈ s, c ≠ '\'' ∧ c ≠ '\x00' ∧ c.toNat < 0x80 := by
    intro c hc
    rcases h2 c hc with rfl | h
    · decide
    · have key : ∀ c ∈ digits.map Prod.fst, c ≠ '\'' ∧ c ≠ '\x00' ∧ c.toNat < 0x80 := by decide
      exact key c h
  rcases C74_literal_partial (k := k) (l := l) (Runes.ascii fun c hc => (ha c hc).2.2) (fun h => (ha _ h).1 rfl)
    (fun h => (ha _ h).2.1 rfl) with ⟨ns', e, h4, h5, h6⟩ | ⟨h4, _⟩
  · rw [← C74_unique h3 h4, h9] at h6
    exact ⟨s, e, h5, h6⟩
  · exact absurd h3 (h4 _)

/-- C74 without restriction is wrong: this literal is accepted, although its text is no IPv6 address. -/
theorem C74_fails : ∃ text e, Runes text ∧ '\'' ∉ text ∧ (∀ ns, ¬ Ipv6Text text ns) ∧
    parseConstraint glibc .table ⟨c!"ipv6('" ++ text ++ c!"')", {}⟩ = .ok e ∧ abs e = some (.int 1) := by
  refine ⟨c!"::1\x00::2", .intConst ⟨{}, { col := 15 }, .notSet⟩ c!"1", Runes.ascii (by decide), by decide, ?_, by decide +kernel, by decide +kernel⟩
  intro ns h
  have := inetPton6_iff.2 ⟨ns, h, rfl⟩
  revert this
  rw [show inetPton6 c!"::1\x00::2" = none by decide +kernel]
  simp

/-! ### Examples -/

namespace Ex

/-- An address that ends in dotted notation and leaves zeros out. -/
theorem nat64 : Ipv6Text c!"64:FF9b::192.0.2.33" [0x64, 0xff9b, 0, 0, 0, 0, 0xc000, 0x221] := by
  have h64 : Hextet c!"64" 0x64 := ⟨NumVal.snoc (.one (c := '6') (d := 6) (by decide) (by decide)) (c := '4') (d := 4) (by decide) (by decide), by decide⟩
  have hff : Hextet c!"FF9b" 0xff9b :=
    ⟨NumVal.snoc (.snoc (.snoc (.one (c := 'F') (d := 15) (by decide) (by decide)) (c := 'F') (d := 15) (by decide) (by decide))
      (c := '9') (d := 9) (by decide) (by decide)) (c := 'b') (d := 11) (by decide) (by decide), by decide⟩
  refine Ipv6Text.short (a := c!"64:FF9b") (b := c!"192.0.2.33") (k := 4) (ms := [0x64, 0xff9b]) (ns := [0xc000, 0x221])
    (.inr (.cons h64 (.one hff))) (.inr ?_) (by decide) rfl
  have hb : ∀ n, n ≤ 255 → DottedByte (natDec n) n := fun n h => ⟨natDec_canonical n, h⟩
  exact Groups.dotted (hb 192 (by decide)) (hb 0 (by decide)) (hb 2 (by decide)) (hb 33 (by decide))

example : Runes c!"64:FF9b::192.0.2.33" ∧ '\'' ∉ c!"64:FF9b::192.0.2.33" ∧ '\x00' ∉ c!"64:FF9b::192.0.2.33" ∧
    ∃ e, parseConstraint glibc .table ⟨c!"ipv6('64:FF9b::192.0.2.33')", {}⟩ = .ok e ∧
      abs e = some (.int 0x0064_ff9b_0000_0000_0000_0000_c000_0221) := by
  refine ⟨Runes.ascii (by decide), by decide, by decide, ?_⟩
  rcases C74_literal_partial (k := .table) (l := {}) (text := c!"64:FF9b::192.0.2.33") (Runes.ascii (by decide)) (by decide) (by decide) with ⟨ns, e, h1, h2, h3⟩ | ⟨h1, _⟩
  · rw [← C74_unique nat64 h1] at h3
    exact ⟨e, h2, h3⟩
  · exact absurd nat64 (h1 _)

/-- Not IPv6 addresses: too few groups, too many groups, `::` twice, five digits, leading zeros in dotted notation, dotted
notation not at the end, an interface name. -/
example : ∀ text ∈ [c!"", c!":", c!"1:2:3:4:5:6:7", c!"1:2:3:4:5:6:7:8:9", c!"1::2::3", c!"12345::", c!"::01.2.3.4", c!"::1.2.3.4:5",
    c!"1:2:3:4:5:6:7::8", c!"fe80::1%eth0"],
    parseConstraint glibc .table ⟨c!"ipv6('" ++ text ++ c!"')", {}⟩ = .err .invalidArgument := by decide +kernel

end Ex

end P4C
