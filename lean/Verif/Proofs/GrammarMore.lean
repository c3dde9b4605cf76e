import Verif.Proofs.Grammar
import Verif.Proofs.Laws
/-!
# Pretty-printing, semicolons and spans
-/
namespace P4C
open Spec

/-! ### Pretty-printing -/

theorem kindText_eq {t : Token} {k : Kind} {s : Str} (h : kindText t = (k, s)) : t.kind = k ∧ t.text = s := by
  simpa [kindText] using h

theorem map_append_inv {ts : List Token} {a b : List (Kind × Str)} (h : ts.map kindText = a ++ b) :
    ∃ x y, ts = x ++ y ∧ x.map kindText = a ∧ y.map kindText = b := by
  obtain ⟨x, y, h1, h2, h3⟩ := List.map_eq_append_iff.1 h
  exact ⟨x, y, h1, h2, h3⟩

theorem map_cons_inv {ts : List Token} {k : Kind} {s : Str} {b : List (Kind × Str)}
    (h : ts.map kindText = (k, s) :: b) :
    ∃ t y, ts = t :: y ∧ t.kind = k ∧ t.text = s ∧ y.map kindText = b := by
  obtain ⟨x, y, h1, h2, h3⟩ := List.map_eq_cons_iff.1 h
  exact ⟨x, y, h1, (kindText_eq h2).1, (kindText_eq h2).2, h3⟩

theorem map_one_inv {ts : List Token} {k : Kind} {s : Str} (h : ts.map kindText = [(k, s)]) :
    ∃ t, ts = [t] ∧ t.kind = k ∧ t.text = s := by
  obtain ⟨t, y, rfl, h1, h2, h3⟩ := map_cons_inv h
  cases List.map_eq_nil_iff.1 h3
  exact ⟨t, rfl, h1, h2⟩

/-- Some tree of level `n` for the tokens has the given abstract syntax. -/
def Reading (pton : Str → Option Bytes) (k : ConstraintKind) (n : Nat) (ts : List Token) (s : SExpr) : Prop :=
  ∃ e, G pton k n ts e ∧ abs e = some s

variable {pton : Str → Option Bytes} {k : ConstraintKind}

theorem Reading.down {n m : Nat} {ts : List Token} {s : SExpr} (h : Reading pton k n ts s) (hm : m ≤ n) :
    Reading pton k m ts s := by
  obtain ⟨e, h1, h2⟩ := h
  exact ⟨e, h1.down hm, h2⟩

theorem reading_paren {m n : Nat} {b : List (Kind × Str)} {s : SExpr} {ts : List Token}
    (h : ∀ ts, ts.map kindText = b → Reading pton k m ts s) (hn : n ≤ 8)
    (ht : ts.map kindText = paren m n b) : Reading pton k n ts s := by
  unfold paren at ht
  split at ht
  · rename_i hnm; exact (h ts ht).down hnm
  · obtain ⟨x, y, rfl, h1, h2⟩ := map_append_inv ht
    obtain ⟨l, x, rfl, h3, _, h4⟩ := map_cons_inv h1
    obtain ⟨r, rfl, h5, _⟩ := map_one_inv h2
    obtain ⟨e, h6, h7⟩ := (h x h4).down (Nat.zero_le m)
    exact Reading.down ⟨e, .paren h3 h6 h5, h7⟩ hn

theorem splitDots_ne_nil (s : Str) : splitDots s ≠ [] := by
  cases s with
  | nil => simp [splitDots]
  | cons c cs => 
    unfold splitDots
    split
    · simp
    · split <;> simp

/-- Joining with dots. -/
def joinDots : List Str → Str
  | [] => []
  | [p] => p
  | p :: ps => p ++ '.' :: joinDots ps

theorem join_splitDots (s : Str) : joinDots (splitDots s) = s := by
  induction s with
  | nil => rfl
  | cons c cs ih =>
    unfold splitDots
    split
    · rename_i h
      subst h
      cases hs : splitDots cs with
      | nil => exact absurd hs (splitDots_ne_nil cs)
      | cons p ps => rw [hs] at ih; simp only [joinDots, ih, List.nil_append]
    · split
      · rename_i p ps hs
        rw [hs] at ih
        cases ps with
        | nil => simp only [joinDots] at ih ⊢; rw [ih]
        | cons q qs => simp only [joinDots, List.cons_append] at ih ⊢; rw [ih]
      · rename_i hs; exact absurd hs (splitDots_ne_nil cs)

theorem dotted_cons {sep : Str} {ts : List Token} {name : Str} {a b : Loc} (h : Dotted sep ts name a b)
    {t d : Token} (ht : t.kind = .id) (hd : d.kind = .dot) :
    ∃ a', Dotted sep (t :: d :: ts) (t.text ++ sep ++ name) a' b := by
  induction h with
  | @one u hu => exact ⟨_, .snoc (.one ht) hd hu⟩
  | @snoc ts name a b d' u _ hd' hu ih =>
    obtain ⟨a', ih⟩ := ih
    refine ⟨a', ?_⟩
    have := ih.snoc hd' hu
    simpa [List.append_assoc] using this

theorem dotted_names {ps : List Str} (hne : ps ≠ []) {ts : List Token} (h : ts.map kindText = nameToks ps) :
    ∃ a b, Dotted c!"." ts (joinDots ps) a b := by
  induction ps generalizing ts with
  | nil => exact absurd rfl hne
  | cons p ps ih =>
    cases ps with
    | nil =>
      simp only [nameToks] at h
      obtain ⟨t, rfl, h1, h2⟩ := map_one_inv h
      simp only [joinDots]
      rw [← h2]
      exact ⟨_, _, .one h1⟩
    | cons q qs =>
      simp only [nameToks] at h
      obtain ⟨t, y, rfl, h1, h2, h3⟩ := map_cons_inv h
      obtain ⟨d, y, rfl, h4, h5, h6⟩ := map_cons_inv h3
      obtain ⟨a, b, h7⟩ := ih (by simp) h6
      obtain ⟨a', h8⟩ := dotted_cons h7 h1 h4
      refine ⟨a', b, ?_⟩
      simp only [joinDots]
      rw [h2, List.append_assoc] at h8
      exact h8

theorem reading_bin {op : BinOp} {n l r : Nat} {kd : Kind} {x : Str} {a b : List (Kind × Str)} {s u v : SExpr}
    (hi : Infix kd op n l r) (hb : binop op s u = some v)
    (h1 : ∀ ts, ts.map kindText = a → Reading pton k l ts s)
    (h2 : ∀ ts, ts.map kindText = b → Reading pton k r ts u) {ts : List Token}
    (ht : ts.map kindText = a ++ (kd, x) :: b) : Reading pton k n ts v := by
  obtain ⟨xs, y, rfl, h3, h4⟩ := map_append_inv ht
  obtain ⟨o, y, rfl, h5, _, h6⟩ := map_cons_inv h4
  obtain ⟨e, h7, h8⟩ := h1 _ h3
  obtain ⟨f, h9, h10⟩ := h2 _ h6
  exact ⟨_, .bin (by rw [h5]; exact hi) h7 h9, by simp only [abs, h8, h10, Option.bind_some, hb]⟩

theorem print_reading {num : Nat → Str} (hnum : ∀ n, NumVal 10 (num n) n) : ∀ (s : SExpr), Writable k s →
    ∀ n, n ≤ 8 → ∀ ts, ts.map kindText = print num s n → Reading pton k n ts s
  | .bool true, _, n, hn, ts, h => by
    obtain ⟨t, rfl, h1, h2⟩ := map_one_inv h
    exact Reading.down ⟨_, .true_ h1, rfl⟩ hn
  | .bool false, _, n, hn, ts, h => by
    obtain ⟨t, rfl, h1, h2⟩ := map_one_inv h
    exact Reading.down ⟨_, .false_ h1, rfl⟩ hn
  | .int z, hw, n, hn, ts, h => by
    obtain ⟨t, rfl, h1, h2⟩ := map_one_inv h
    refine Reading.down ⟨_, .numeral (b := 10) (n := z.toNat) (by rw [h1]; rfl) (by rw [h2]; exact hnum _)
      (natDec_canonical _), ?_⟩ hn
    simp only [abs, decimal_natDec, Option.map_some]
    rw [Int.toNat_of_nonneg hw]
  | .key s, hw, n, hn, ts, h => by
    obtain ⟨a, b, hd⟩ := dotted_names (splitDots_ne_nil s) h
    rw [join_splitDots] at hd
    exact Reading.down ⟨_, .key hw.1 hd, rfl⟩ hn
  | .param s, hw, n, hn, ts, h => by
    obtain ⟨t, rfl, h1, h2⟩ := map_one_inv h
    exact Reading.down ⟨_, .param hw.1 (.one h1), by simp only [abs, h2]⟩ hn
  | .attr s, hw, n, hn, ts, h => by
    obtain ⟨d, y, rfl, h1, _, h2⟩ := map_cons_inv h
    obtain ⟨t, rfl, h3, h4⟩ := map_one_inv h2
    exact Reading.down ⟨_, .attr h1 h3, by simp only [abs, h4]⟩ hn
  | .field e f, hw, n, hn, ts, h => by
    refine reading_paren ?_ hn h
    intro ts h
    obtain ⟨x, y, rfl, h1, h2⟩ := map_append_inv h
    obtain ⟨d, y, rfl, h3, _, h4⟩ := map_cons_inv h2
    obtain ⟨t, rfl, h5, h6⟩ := map_one_inv h4
    obtain ⟨e', h7, h8⟩ := print_reading hnum e hw.1 7 (by omega) x h1
    exact ⟨_, .field h7 h3 h5, by simp only [abs, h8, h6, Option.map_some]⟩
  | .not e, hw, n, hn, ts, h => by
    refine reading_paren ?_ hn h
    intro ts h
    obtain ⟨t, y, rfl, h1, _, h2⟩ := map_cons_inv h
    obtain ⟨e', h7, h8⟩ := print_reading hnum e hw 6 (by omega) y h2
    exact ⟨_, .not h1 h7, by simp only [abs, h8, Option.map_some]⟩
  | .neg e, hw, n, hn, ts, h => by
    refine reading_paren ?_ hn h
    intro ts h
    obtain ⟨t, y, rfl, h1, _, h2⟩ := map_cons_inv h
    obtain ⟨e', h7, h8⟩ := print_reading hnum e hw 6 (by omega) y h2
    exact ⟨_, .neg h1 h7, by simp only [abs, h8, Option.map_some]⟩
  | .cmp o l r, hw, n, hn, ts, h => by
    refine reading_paren ?_ hn h
    intro ts h
    have h1 := print_reading hnum l hw.1 6 (by omega)
    have h2 := print_reading hnum r hw.2 6 (by omega)
    cases o with
    | eq => exact reading_bin .eq rfl h1 h2 h
    | ne => exact reading_bin .ne rfl h1 h2 h
    | lt => exact reading_bin .lt rfl h1 h2 h
    | le => exact reading_bin .le rfl h1 h2 h
    | gt => exact reading_bin .gt rfl h1 h2 h
    | ge => exact reading_bin .ge rfl h1 h2 h
  | .conn .and l r, hw, n, hn, ts, h => by
    refine reading_paren ?_ hn h
    intro ts h
    exact reading_bin .and rfl (print_reading hnum l hw.1 4 (by omega)) (print_reading hnum r hw.2 5 (by omega)) h
  | .conn .or l r, hw, n, hn, ts, h => by
    refine reading_paren ?_ hn h
    intro ts h
    exact reading_bin .or rfl (print_reading hnum l hw.1 3 (by omega)) (print_reading hnum r hw.2 4 (by omega)) h
  | .conn .implies l r, hw, n, hn, ts, h => by
    refine reading_paren ?_ hn h
    intro ts h
    exact reading_bin .implies rfl (print_reading hnum l hw.1 3 (by omega))
      (print_reading hnum r hw.2 3 (by omega)) h

/-! ### What is parsed can be printed -/

theorem Spec.Ident.spells {s : Str} (h : Ident s) : Spells .id s s := by
  obtain ⟨⟨c, cs, rfl, h1, h2⟩, _⟩ := h
  exact .id h1 h2

/-- A printed token: it spells itself and is not an identifier starting with `true` or `false`. -/
def Plain (t : Kind × Str) : Prop :=
  Spells t.1 t.2 t.2 ∧ (t.1 = .id → ¬ c!"true" <+: t.2 ∧ ¬ c!"false" <+: t.2)

theorem Spec.Ident.plain {s : Str} (h : Ident s) : Plain (.id, s) := ⟨h.spells, fun _ => h.2⟩

theorem plain_kw {kd : Kind} {s : Str} (h : (kd, s) ∈ keywords) (hk : kd ≠ .id) : Plain (kd, s) :=
  ⟨.keyword h, fun e => absurd e hk⟩

theorem plain_append {a b : List (Kind × Str)} (h : ∀ t ∈ a, Plain t) (h' : ∀ t ∈ b, Plain t) :
    ∀ t ∈ a ++ b, Plain t := by
  intro t ht
  rcases List.mem_append.1 ht with ht | ht
  · exact h t ht
  · exact h' t ht

theorem plain_cons {a : Kind × Str} {b : List (Kind × Str)} (h : Plain a) (h' : ∀ t ∈ b, Plain t) :
    ∀ t ∈ a :: b, Plain t := by
  intro t ht
  rcases List.mem_cons.1 ht with rfl | ht
  · exact h
  · exact h' t ht

theorem plain_paren {m n : Nat} {b : List (Kind × Str)} (h : ∀ t ∈ b, Plain t) : ∀ t ∈ paren m n b, Plain t := by
  unfold paren
  split
  · exact h
  · exact plain_append (plain_cons (plain_kw (by decide) (by decide)) h)
      (plain_cons (plain_kw (by decide) (by decide)) (by simp))

theorem plain_names {ps : List Str} (h : ∀ p ∈ ps, Ident p) : ∀ t ∈ nameToks ps, Plain t := by
  induction ps with
  | nil => simp [nameToks]
  | cons p ps ih =>
    cases ps with
    | nil => exact plain_cons (h p (by simp)).plain (by simp)
    | cons q qs =>
      exact plain_cons (h p (by simp)).plain (plain_cons (plain_kw (by decide) (by decide))
        (ih fun x hx => h x (List.mem_cons_of_mem _ hx)))

theorem numVal_digits {s : Str} {n : Nat} (h : NumVal 10 s n) : ∀ c ∈ s, Digit c := by
  intro c hc
  obtain ⟨d, hd, hlt⟩ := h.mem c hc
  revert hlt
  simp only [digits, List.mem_cons, Prod.mk.injEq, List.not_mem_nil, or_false] at hd
  unfold Digit
  rcases hd with ⟨rfl, rfl⟩ | ⟨rfl, rfl⟩ | ⟨rfl, rfl⟩ | ⟨rfl, rfl⟩ | ⟨rfl, rfl⟩ | ⟨rfl, rfl⟩ | ⟨rfl, rfl⟩ |
    ⟨rfl, rfl⟩ | ⟨rfl, rfl⟩ | ⟨rfl, rfl⟩ | ⟨rfl, rfl⟩ | ⟨rfl, rfl⟩ | ⟨rfl, rfl⟩ | ⟨rfl, rfl⟩ | ⟨rfl, rfl⟩ |
    ⟨rfl, rfl⟩ | ⟨rfl, rfl⟩ | ⟨rfl, rfl⟩ | ⟨rfl, rfl⟩ | ⟨rfl, rfl⟩ | ⟨rfl, rfl⟩ | ⟨rfl, rfl⟩ <;> decide

theorem print_plain {num : Nat → Str} (hnum : ∀ n, NumVal 10 (num n) n) : ∀ (s : SExpr), Writable k s →
    ∀ n, ∀ t ∈ print num s n, Plain t
  | .bool true, _, n => plain_cons (plain_kw (by decide) (by decide)) (by simp)
  | .bool false, _, n => plain_cons (plain_kw (by decide) (by decide)) (by simp)
  | .int z, _, n => plain_cons ⟨.decimal (hnum _).ne_nil (numVal_digits (hnum _)), nofun⟩ (by simp)
  | .key s, hw, n => plain_names hw.2
  | .param s, hw, n => plain_cons hw.2.plain (by simp)
  | .attr s, hw, n => plain_cons (plain_kw (by decide) (by decide)) (plain_cons (Ident.plain hw) (by simp))
  | .field e f, hw, n => plain_paren (plain_append (print_plain hnum e hw.1 7)
      (plain_cons (plain_kw (by decide) (by decide)) (plain_cons hw.2.plain (by simp))))
  | .not e, hw, n => plain_paren (plain_cons (plain_kw (by decide) (by decide)) (print_plain hnum e hw 6))
  | .neg e, hw, n => plain_paren (plain_cons (plain_kw (by decide) (by decide)) (print_plain hnum e hw 6))
  | .cmp o l r, hw, n => plain_paren (plain_append (print_plain hnum l hw.1 6)
      (plain_cons (by cases o <;> exact plain_kw (by decide) (by decide)) (print_plain hnum r hw.2 6)))
  | .conn .and l r, hw, n => plain_paren (plain_append (print_plain hnum l hw.1 4)
      (plain_cons (plain_kw (by decide) (by decide)) (print_plain hnum r hw.2 5)))
  | .conn .or l r, hw, n => plain_paren (plain_append (print_plain hnum l hw.1 3)
      (plain_cons (plain_kw (by decide) (by decide)) (print_plain hnum r hw.2 4)))
  | .conn .implies l r, hw, n => plain_paren (plain_append (print_plain hnum l hw.1 3)
      (plain_cons (plain_kw (by decide) (by decide)) (print_plain hnum r hw.2 3)))

/-- The printed text is read as the printed tokens. -/
theorem tokensOf_text {ts : List (Kind × Str)} (h : ∀ t ∈ ts, Plain t) :
    tokensOf (toText ts) = ts ++ [(.endOfInput, [])] := by
  induction ts with
  | nil => exact tokensOf_eq (l := {}) .eof
  | cons t ts ih =>
    obtain ⟨kd, x⟩ := t
    obtain ⟨h1, h2⟩ := h (kd, x) (by simp)
    have hw : Seps c!" " := .cons .blank .nil
    have hc : Chosen (x ++ ([] ++ (c!" " ++ toText ts))) kd x :=
      chosen_after h1 (by rw [List.append_nil]; exact chosen_alone h1 h2) hw (by simp)
    have e : toText ((kd, x) :: ts) = x ++ ([] ++ (c!" " ++ toText ts)) := by
      simp [toText]
    rw [e]
    refine (tokensOf_tok h1 hc).trans ?_
    rw [List.nil_append, tokensOf_seps hw, ih fun t ht => h t (List.mem_cons_of_mem _ ht)]
    rfl

/-! ### Semicolons -/

theorem G_zero_inv {n : Nat} {ts : List Token} {e : Expr} (h : G pton k n ts e) : n = 0 →
    G pton k 1 ts e ∨ ∃ us o, ts = us ++ [o] ∧ o.kind = .semicolon ∧ G pton k 1 us e := by
  intro hn
  cases h with
  | up _ h => subst hn; exact .inl h
  | trailing h ho => exact .inr ⟨_, _, rfl, ho, h⟩
  | bin hi => exact absurd hn (by have := infix_inv hi; omega)
  | _ => omega

theorem G_seq {n : Nat} {us : List Token} {f : Expr} (h : G pton k n us f) : n = 1 → ∀ {ts e} {o : Token},
    G pton k 1 ts e → o.kind = .semicolon → ∃ f', G pton k 1 (ts ++ o :: us) f' ∧
      ∀ s u, abs e = some s → abs f = some u → ∃ v, abs f' = some v ∧ conjuncts v = conjuncts s ++ conjuncts u := by
  have simple : ∀ {us : List Token} {f : Expr}, G pton k 2 us f → ∀ {ts e} {o : Token},
    G pton k 1 ts e → o.kind = .semicolon → ∃ f', G pton k 1 (ts ++ o :: us) f' ∧
      ∀ s u, abs e = some s → abs f = some u → ∃ v, abs f' = some v ∧ conjuncts v = conjuncts s ++ conjuncts u := by
    intro us f h ts e o he ho
    refine ⟨_, .bin (by rw [ho]; exact .semicolon) he h, ?_⟩
    intro s u hs hu
    exact ⟨.conn .and s u, by simp only [abs, hs, hu, Option.bind_some, binop], rfl⟩
  induction h with
  | @up n us f _ h _ => intro hn; subst hn; exact simple h
  | @bin o' op n l r ts1 us1 e1 f1 hi h1 h2 ih1 _ =>
    intro hn ts e o he ho
    subst hn
    generalize hk : o'.kind = kd at hi
    cases hi
    obtain ⟨f', hg, ha⟩ := ih1 rfl he ho
    refine ⟨_, by simpa using G.bin (by rw [hk]; exact .semicolon) hg h2, ?_⟩
    intro s u hs hu
    simp only [abs] at hu
    obtain ⟨a, hea, hu⟩ := Option.bind_eq_some_iff.1 hu
    obtain ⟨b, heb, hu⟩ := Option.bind_eq_some_iff.1 hu
    cases hu
    obtain ⟨v, hv, hc⟩ := ha s a hs hea
    refine ⟨.conn .and v b, by simp only [abs, hv, heb, Option.bind_some, binop], ?_⟩
    simp only [conjuncts, hc, List.append_assoc]
  | _ => intro hn; omega

/-- The conjunction of a list of constraints. -/
def AllMean (Γ : Sig) (ρ : Env) : List SExpr → Bool → Prop
  | [], b => b = true
  | c :: cs, b => ∃ x y, Means Γ ρ c .boolean (.bool x) ∧ AllMean Γ ρ cs y ∧ b = (x && y)

theorem allMean_append {Γ : Sig} {ρ : Env} {cs ds : List SExpr} {b : Bool} :
    AllMean Γ ρ (cs ++ ds) b ↔ ∃ x y, AllMean Γ ρ cs x ∧ AllMean Γ ρ ds y ∧ b = (x && y) := by
  induction cs generalizing b with
  | nil => cases b <;> simp [AllMean]
  | cons c cs ih =>
    simp only [List.cons_append, AllMean, ih]
    constructor
    · rintro ⟨x, _, h1, ⟨y, z, h2, h3, rfl⟩, rfl⟩
      exact ⟨_, z, ⟨x, y, h1, h2, rfl⟩, h3, (Bool.and_assoc ..).symm⟩
    · rintro ⟨_, z, ⟨x, y, h1, h2, rfl⟩, h3, rfl⟩
      exact ⟨x, _, h1, ⟨y, z, h2, h3, rfl⟩, Bool.and_assoc ..⟩

theorem allMean_one {Γ : Sig} {ρ : Env} {c : SExpr} {b : Bool} :
    AllMean Γ ρ [c] b ↔ Means Γ ρ c .boolean (.bool b) := by
  simp [AllMean]

theorem means_and {Γ : Sig} {ρ : Env} {l r : SExpr} {b : Bool} : Means Γ ρ (.conn .and l r) .boolean (.bool b) ↔
    ∃ x y, Means Γ ρ l .boolean (.bool x) ∧ Means Γ ρ r .boolean (.bool y) ∧ b = (x && y) := by
  constructor
  · intro h
    cases h with
    | conn h1 h2 => exact ⟨_, _, h1, h2, rfl⟩
  · rintro ⟨x, y, h1, h2, rfl⟩; exact .conn h1 h2

theorem means_conjuncts {Γ : Sig} {ρ : Env} (s : SExpr) (b : Bool) :
    Means Γ ρ s .boolean (.bool b) ↔ AllMean Γ ρ (conjuncts s) b := by
  induction s generalizing b with
  | conn o l r ihl ihr =>
    cases o with
    | and => simp only [conjuncts, allMean_append, means_and, ihl, ihr]
    | or => exact allMean_one.symm
    | implies => exact allMean_one.symm
  | _ => exact allMean_one.symm

theorem hasTy_conjuncts {Γ : Sig} (s : SExpr) :
    HasTy Γ s .boolean ↔ ∀ c ∈ conjuncts s, HasTy Γ c .boolean := by
  induction s with
  | conn o l r ihl ihr =>
    cases o with
    | and =>
      simp only [conjuncts, List.mem_append]
      constructor
      · intro h
        cases h with
        | conn h1 h2 =>
          rintro c (hc | hc)
          · exact ihl.1 h1 c hc
          · exact ihr.1 h2 c hc
      · intro h
        exact .conn (ihl.2 fun c hc => h c (.inl hc)) (ihr.2 fun c hc => h c (.inr hc))
    | or => simp [conjuncts]
    | implies => simp [conjuncts]
  | _ => simp [conjuncts]

/-- No two consecutive semicolons. -/
def Single (ts : List Token) : Prop := ∀ a b x y, ts = a ++ x :: y :: b → ¬ (x.kind = .semicolon ∧ y.kind = .semicolon)

/-- The last token is not a semicolon. -/
def EndsOk (ts : List Token) : Prop := ∀ a x, ts = a ++ [x] → x.kind ≠ .semicolon

/-- The first token is not a semicolon. -/
def StartsOk (ts : List Token) : Prop := ∀ a x, ts = x :: a → x.kind ≠ .semicolon

theorem single_append {ts us : List Token} (h : Single ts) (h' : Single us)
    (hj : EndsOk ts ∨ StartsOk us) : Single (ts ++ us) := by
  intro a b x y e hk
  rcases List.append_eq_append_iff.1 e with ⟨d, h1, h2⟩ | ⟨d, h1, h2⟩
  · exact h' d b x y h2 hk
  · cases d with
    | nil => exact h' [] b x y (by simpa using h2.symm) hk
    | cons z d =>
      cases d with
      | nil =>
        simp only [List.cons_append, List.nil_append, List.cons.injEq] at h2
        obtain ⟨rfl, rfl⟩ := h2
        rcases hj with hj | hj
        · exact hj a x h1 hk.1
        · exact hj b y rfl hk.2
      | cons w d =>
        simp only [List.cons_append, List.cons.injEq] at h2
        obtain ⟨rfl, rfl, _⟩ := h2
        exact h a d x y h1 hk

theorem single_one (t : Token) : Single [t] := by
  intro a b x y e
  have := congrArg List.length e
  simp at this
  omega

theorem startsOk_cons {t : Token} {ts : List Token} (h : t.kind ≠ .semicolon) : StartsOk (t :: ts) := by
  intro a x e; cases e; exact h

theorem endsOk_snoc {t : Token} {ts : List Token} (h : t.kind ≠ .semicolon) : EndsOk (ts ++ [t]) := by
  intro a x e
  have := congrArg List.getLast? e
  simp at this
  subst this
  exact h

theorem endsOk_append {ts us : List Token} (h : EndsOk us) (hne : us ≠ []) : EndsOk (ts ++ us) := by
  obtain ⟨vs, u, rfl⟩ : ∃ vs u, us = vs ++ [u] := ⟨_, _, (List.dropLast_concat_getLast hne).symm⟩
  rw [← List.append_assoc]
  exact endsOk_snoc (h vs u rfl)

theorem startsOk_append {ts us : List Token} (h : StartsOk ts) (hne : ts ≠ []) : StartsOk (ts ++ us) := by
  cases ts with
  | nil => exact absurd rfl hne
  | cons t ts => exact startsOk_cons (h ts t rfl)

theorem single_cons {t : Token} {ts : List Token} (h : Single ts) (ht : t.kind ≠ .semicolon) : Single (t :: ts) :=
  single_append (ts := [t]) (single_one t) h (.inl (endsOk_snoc (ts := []) ht))

theorem ne_semi {t : Token} {kd : Kind} (h : t.kind = kd) (hk : kd ≠ .semicolon) : t.kind ≠ .semicolon := by
  rw [h]; exact hk

theorem dotted_semi {sep : Str} {ts : List Token} {name : Str} {a b : Loc} (h : Dotted sep ts name a b) :
    Single ts ∧ StartsOk ts ∧ EndsOk ts ∧ ts ≠ [] := by
  induction h with
  | @one t ht =>
    have := ne_semi ht (by decide)
    exact ⟨single_one t, startsOk_cons this, endsOk_snoc (ts := []) this, by simp⟩
  | @snoc ts name a b d t _ hd ht ih =>
    obtain ⟨h1, h2, h3, h4⟩ := ih
    have hd := ne_semi hd (by decide)
    have ht := ne_semi ht (by decide)
    exact ⟨single_append h1 (single_cons (single_one t) hd) (.inl h3), startsOk_append h2 h4,
      endsOk_append (endsOk_snoc (ts := [d]) ht) (by simp), by simp⟩

theorem G_semi {n : Nat} {ts : List Token} {e : Expr} (h : G pton k n ts e) :
    Single ts ∧ StartsOk ts ∧ (1 ≤ n → EndsOk ts) ∧ ts ≠ [] := by
  induction h with
  | @true_ t ht | @false_ t ht =>
    have := ne_semi ht (by decide)
    exact ⟨single_one t, startsOk_cons this, fun _ => endsOk_snoc (ts := []) this, by simp⟩
  | @numeral t b n s hb =>
    have : t.kind ≠ .semicolon := by intro e; rw [e] at hb; cases hb
    exact ⟨single_one t, startsOk_cons this, fun _ => endsOk_snoc (ts := []) this, by simp⟩
  | @address t l a r n s ht hl ha hr =>
    have ht := ne_semi ht (by decide)
    have hl := ne_semi hl (by decide)
    have ha := ne_semi ha (by decide)
    have hr := ne_semi hr (by decide)
    exact ⟨single_cons (single_cons (single_cons (single_one r) ha) hl) ht, startsOk_cons ht,
      fun _ => endsOk_snoc (ts := [t, l, a]) hr, by simp⟩
  | key _ hd | param _ hd =>
    obtain ⟨h1, h2, h3, h4⟩ := dotted_semi hd
    exact ⟨h1, h2, fun _ => h3, h4⟩
  | @attr d t hd ht =>
    have hd := ne_semi hd (by decide)
    have ht := ne_semi ht (by decide)
    exact ⟨single_cons (single_one t) hd, startsOk_cons hd, fun _ => endsOk_snoc (ts := [d]) ht, by simp⟩
  | @paren l r ts e hl _ hr ih =>
    have hl := ne_semi hl (by decide)
    have hr := ne_semi hr (by decide)
    refine ⟨?_, startsOk_cons hl, fun _ => endsOk_snoc (ts := l :: ts) hr, by simp⟩
    exact single_append (single_cons ih.1 hl) (single_one r) (.inr (startsOk_cons hr))
  | up _ h ih => exact ⟨ih.1, ih.2.1, fun _ => ih.2.2.1 (by omega), ih.2.2.2⟩
  | @field ts e d t _ hd ht ih =>
    have hd := ne_semi hd (by decide)
    have ht := ne_semi ht (by decide)
    exact ⟨single_append ih.1 (single_cons (single_one t) hd) (.inr (startsOk_cons hd)),
      startsOk_append ih.2.1 ih.2.2.2, fun _ => endsOk_append (endsOk_snoc (ts := [d]) ht) (by simp), by simp⟩
  | not ht _ ih | neg ht _ ih =>
    have ht := ne_semi ht (by decide)
    exact ⟨single_cons ih.1 ht, startsOk_cons ht,
      fun _ => endsOk_append (ts := [_]) (ih.2.2.1 (by omega)) ih.2.2.2, by simp⟩
  | @bin o op n l r ts us e f hi _ _ ih1 ih2 =>
    have hf := infix_inv hi
    have h3 : EndsOk us := ih2.2.2.1 (by omega)
    refine ⟨?_, startsOk_append ih1.2.1 ih1.2.2.2, fun _ => ?_, by simp⟩
    · exact single_append ih1.1 (single_append (ts := [o]) (single_one o) ih2.1 (.inr ih2.2.1))
        (.inl (ih1.2.2.1 (by omega)))
    · exact endsOk_append (endsOk_append (ts := [o]) h3 ih2.2.2.2) (by simp)
  | @trailing ts o e _ ho ih =>
    exact ⟨single_append ih.1 (single_one o) (.inl (ih.2.2.1 (by omega))), startsOk_append ih.2.1 ih.2.2.2,
      fun h => absurd h (by omega), by simp⟩

/-! ### Spans -/

/-- Tokens in order, each of them non-empty. -/
def Ordered' (ts : List Token) : Prop :=
  (∀ t ∈ ts, LocLt t.start t.stop) ∧ ts.Pairwise fun a b => LocLe a.stop b.start

theorem Spec.LocLt.trans_le {a b c : Loc} (h : LocLt a b) (h' : LocLe b c) : LocLt a c := by
  unfold LocLt LocLe at *; omega

theorem Spec.LocLe.trans_lt {a b c : Loc} (h : LocLe a b) (h' : LocLt b c) : LocLt a c := by
  unfold LocLt LocLe at *; omega

theorem Ordered'.append {ts us : List Token} (h : Ordered' (ts ++ us)) :
    Ordered' ts ∧ Ordered' us ∧ ∀ a ∈ ts, ∀ b ∈ us, LocLe a.stop b.start := by
  obtain ⟨h1, h2⟩ := h
  rw [List.pairwise_append] at h2
  exact ⟨⟨fun t ht => h1 t (List.mem_append_left _ ht), h2.1⟩, ⟨fun t ht => h1 t (List.mem_append_right _ ht), h2.2.1⟩,
    h2.2.2⟩

theorem Ordered'.cons {t : Token} {us : List Token} (h : Ordered' (t :: us)) :
    LocLt t.start t.stop ∧ Ordered' us ∧ ∀ b ∈ us, LocLe t.stop b.start := by
  obtain ⟨h1, h2⟩ := h
  rw [List.pairwise_cons] at h2
  exact ⟨h1 t (by simp), ⟨fun x hx => h1 x (List.mem_cons_of_mem _ hx), h2.2⟩, h2.1⟩

/-- The span lies between two of the tokens. -/
def Within (ts : List Token) (a b : Loc) : Prop := (∃ t ∈ ts, LocLe t.start a) ∧ ∃ t ∈ ts, LocLe b t.stop

theorem Within.mono {ts us : List Token} {a b : Loc} (h : Within ts a b) (hs : ∀ t ∈ ts, t ∈ us) : Within us a b := by
  obtain ⟨⟨t, h1, h2⟩, u, h3, h4⟩ := h
  exact ⟨⟨t, hs t h1, h2⟩, u, hs u h3, h4⟩

theorem dotted_spans {sep : Str} {ts : List Token} {name : Str} {a b : Loc} (h : Dotted sep ts name a b)
    (ho : Ordered' ts) : LocLt a b ∧ Within ts a b := by
  induction h with
  | @one t ht =>
    have := ho.1 t (by simp)
    exact ⟨this, ⟨t, by simp, locLe_refl _⟩, t, by simp, locLe_refl _⟩
  | @snoc ts name a b d t _ hd ht ih =>
    obtain ⟨h1, h2, h3⟩ := ho.append
    obtain ⟨h4, h5⟩ := ih h1
    obtain ⟨⟨u, hu, hua⟩, v, hv, hvb⟩ := h5
    refine ⟨?_, ⟨u, List.mem_append_left _ hu, hua⟩, t, by simp, locLe_refl _⟩
    have h6 : LocLe v.stop t.start := h3 v hv t (by simp)
    have h7 : LocLt t.start t.stop := h2.1 t (by simp)
    exact h4.trans_le ((hvb.trans h6).trans h7.le)

theorem G_spans {n : Nat} {ts : List Token} {e : Expr} (h : G pton k n ts e) (ho : Ordered' ts) :
    Nested e ∧ LocLt e.start e.stop ∧ Within ts e.start e.stop := by
  induction h with
  | @true_ t ht | @false_ t ht | @numeral t b n s hb =>
    have := ho.1 t (by simp)
    exact ⟨this, this, ⟨t, by simp, locLe_refl _⟩, t, by simp, locLe_refl _⟩
  | @address t l a r n s ht hl ha hr =>
    have h1 := ho.1 t (by simp)
    have h2 := ho.1 r (by simp)
    have h3 : LocLe t.stop r.start := ho.cons.2.2 r (by simp)
    have h4 : LocLt t.start r.stop := h1.trans_le (h3.trans h2.le)
    exact ⟨h4, h4, ⟨t, by simp, locLe_refl _⟩, r, by simp, locLe_refl _⟩
  | key _ hd | param _ hd =>
    obtain ⟨h1, h2⟩ := dotted_spans hd ho
    exact ⟨h1, h1, h2⟩
  | @attr d t hd ht =>
    have h1 := ho.1 d (by simp)
    have h2 := ho.1 t (by simp)
    have h3 : LocLe d.stop t.start := ho.cons.2.2 t (by simp)
    have h4 : LocLt d.start t.stop := h1.trans_le (h3.trans h2.le)
    exact ⟨h4, h4, ⟨d, by simp, locLe_refl _⟩, t, by simp, locLe_refl _⟩
  | @paren l r ts e hl _ hr ih =>
    obtain ⟨h1, h2, h3⟩ := ih (ho.append (ts := l :: ts)).1.cons.2.1
    exact ⟨h1, h2, h3.mono fun t ht => by simp [ht]⟩
  | up _ _ ih => exact ih ho
  | @field ts e d t _ hd ht ih =>
    obtain ⟨h1, h2, h3⟩ := ho.append
    obtain ⟨h4, h5, ⟨u, hu, hua⟩, v, hv, hvb⟩ := ih h1
    have h6 : LocLe v.stop t.start := h3 v hv t (by simp)
    have h7 : LocLt t.start t.stop := h2.1 t (by simp)
    have h8 : LocLe e.stop t.stop := (hvb.trans h6).trans h7.le
    exact ⟨⟨h5.trans_le h8, locLe_refl _, h8, h4⟩, h5.trans_le h8, ⟨u, List.mem_append_left _ hu, hua⟩, t, by simp,
      locLe_refl _⟩
  | @not t ts e ht _ ih | @neg t ts e ht _ ih =>
    obtain ⟨h1, h2, h3⟩ := ho.cons
    obtain ⟨h4, h5, ⟨u, hu, hua⟩, v, hv, hvb⟩ := ih h2
    have h6 : LocLe t.start e.start := h1.le.trans ((h3 u hu).trans hua)
    exact ⟨⟨h6.trans_lt h5, h6, locLe_refl _, h4⟩, h6.trans_lt h5, ⟨t, by simp, locLe_refl _⟩, v,
      List.mem_cons_of_mem _ hv, hvb⟩
  | @bin o op n l r ts us e f hi _ _ ih1 ih2 =>
    obtain ⟨h1, h2, h3⟩ := ho.append
    obtain ⟨_, h2, _⟩ := h2.cons
    obtain ⟨h4, h5, ⟨u, hu, hua⟩, v, hv, hvb⟩ := ih1 h1
    obtain ⟨h6, h7, ⟨x, hx, hxa⟩, y, hy, hyb⟩ := ih2 h2
    have h8 : LocLe e.stop f.start := (hvb.trans (h3 v hv x (List.mem_cons_of_mem _ hx))).trans hxa
    have h9 : LocLt e.start f.stop := h5.trans_le (h8.trans h7.le)
    exact ⟨⟨h9, locLe_refl _, h8, locLe_refl _, h4, h6⟩, h9, ⟨u, List.mem_append_left _ hu, hua⟩, y,
      List.mem_append_right _ (List.mem_cons_of_mem _ hy), hyb⟩
  | @trailing ts o e _ ho' ih =>
    obtain ⟨h1, h2, h3⟩ := ih ho.append.1
    exact ⟨h1, h2, h3.mono fun t ht => List.mem_append_left _ ht⟩

theorem spells_length {k : Kind} {t l : Str} (h : Spells k t l) : 0 < l.length := by
  cases h with
  | keyword h =>
    simp only [keywords, List.mem_cons, Prod.mk.injEq, List.not_mem_nil, or_false] at h
    rcases h with ⟨_, rfl⟩ | ⟨_, rfl⟩ | ⟨_, rfl⟩ | ⟨_, rfl⟩ | ⟨_, rfl⟩ | ⟨_, rfl⟩ | ⟨_, rfl⟩ | ⟨_, rfl⟩ |
      ⟨_, rfl⟩ | ⟨_, rfl⟩ | ⟨_, rfl⟩ | ⟨_, rfl⟩ | ⟨_, rfl⟩ | ⟨_, rfl⟩ | ⟨_, rfl⟩ | ⟨_, rfl⟩ | ⟨_, rfl⟩ |
      ⟨_, rfl⟩ <;> decide
  | decimal h _ => exact List.length_pos_iff.2 h
  | _ => simp

theorem advance_mono {l l' : Loc} (h : LocLe l l') (s : Str) : LocLe (advance l s) (advance l' s) := by
  induction s generalizing l l' with
  | nil => exact h
  | cons c cs ih =>
    unfold advance
    apply ih
    split
    · exact h
    · split
      · unfold LocLe nextLine at *; simp only; omega
      · unfold LocLe shift at *; simp only; omega

theorem shift_le_nextLine (l : Loc) (m n : Nat) : LocLe (shift l m) (shift (nextLine l) n) := by
  unfold LocLe shift nextLine; simp only; omega

theorem shift_le_advance : ∀ (s : Str) (l : Loc) (r : Str), LocLe (advance (shift l s.length) r) (advance l (s ++ r))
  | [], l, r => by
    have : shift l ([] : Str).length = l := by simp [shift]
    rw [this]
    exact locLe_refl _
  | c :: cs, l, r => by
    by_cases h1 : c = '\r' ∧ (cs ++ r).head? = some '\n'
    · have e : advance l (c :: cs ++ r) = advance l (cs ++ r) := by
        rw [List.cons_append, advance, if_pos h1]
      rw [e]
      match cs, h1 with
      | [], h1 =>
        cases r with
        | nil => simp at h1
        | cons d r' =>
          have hd : d = '\n' := by simpa using h1.2
          subst hd
          exact locLe_refl _
      | d :: ds, h1 =>
        have hd : d = '\n' := by simpa using h1.2
        subst hd
        rw [List.cons_append, advance.eq_2 l]
        rw [if_neg (by rintro ⟨h, _⟩; exact absurd h (by decide)), if_pos (by decide)]
        exact (advance_mono (shift_le_nextLine _ _ _) r).trans (shift_le_advance ds _ r)
    · rw [List.cons_append, advance.eq_2 l, if_neg h1]
      split
      · exact (advance_mono (shift_le_nextLine _ _ _) r).trans (shift_le_advance cs _ r)
      · have := shift_le_advance cs (shift l 1) r
        rw [shift_shift, Nat.add_comm] at this
        exact this

/-- The tokens of the lexer are in order, and lie between the start and the end of the text. -/
theorem lexed_ordered {l : Loc} {s : Str} {ts : List Token} (h : Lexed l s ts) :
    ∃ toks last, ts = toks ++ [last] ∧ Ordered' toks ∧
      (∀ t ∈ toks, t.kind ≠ .endOfInput) ∧
      (∀ t ∈ toks, LocLe l t.start ∧ LocLe t.stop (advance l s)) := by
  have skip : ∀ {l l' : Loc} {w s : Str} {ts : List Token},
      (∃ toks last, ts = toks ++ [last] ∧ Ordered' toks ∧ (∀ t ∈ toks, t.kind ≠ .endOfInput) ∧
        (∀ t ∈ toks, LocLe l' t.start ∧ LocLe t.stop (advance l' s))) →
      LocLe l l' → LocLe (advance l' s) (advance l (w ++ s)) →
      ∃ toks last, ts = toks ++ [last] ∧ Ordered' toks ∧ (∀ t ∈ toks, t.kind ≠ .endOfInput) ∧
        (∀ t ∈ toks, LocLe l t.start ∧ LocLe t.stop (advance l (w ++ s))) := by
    rintro l l' w s ts ⟨toks, last, h1, h2, h2', h3⟩ h4 h5
    exact ⟨toks, last, h1, h2, h2', fun t ht => ⟨h4.trans (h3 t ht).1, (h3 t ht).2.trans h5⟩⟩
  have adv : ∀ {l : Loc} {w : Str}, (¬ ∃ x, w = x ++ ['\r']) → ∀ s, advance (advance l w) s = advance l (w ++ s) := by
    intro l w hw s
    exact (advance_append (.inl hw)).symm
  have sh : ∀ (l : Loc) (n : Nat), LocLe l (shift l n) := by
    intro l n; unfold LocLe shift; simp only; exact .inr ⟨trivial, by omega⟩
  have nl : ∀ (l : Loc), LocLe l (nextLine l) := by
    intro l; unfold LocLe nextLine; simp only; omega
  induction h with
  | eof => exact ⟨[], _, rfl, ⟨by simp, .nil⟩, by simp, by simp⟩
  | bad => exact ⟨[], _, rfl, ⟨by simp, .nil⟩, by simp, by simp⟩
  | @blank l c s ts hc _ ih =>
    exact skip (w := [c]) ih (sh _ _) (shift_le_advance [c] l s)
  | @crlf l s ts _ ih => exact skip (w := c!"\r\n") ih (nl _) (locLe_refl _)
  | @cr l s ts hs _ ih =>
    refine skip (w := c!"\r") ih (nl _) ?_
    have : advance l (c!"\r" ++ s) = advance (nextLine l) s := by
      cases s with
      | nil => rfl
      | cons x xs =>
        have : x ≠ '\n' := fun e => hs xs (by rw [e])
        rw [List.cons_append, advance, if_neg (by simp [this]), if_pos (by decide)]
        rfl
    rw [this]; exact locLe_refl _
  | @lf l s ts _ ih => exact skip (w := c!"\n") ih (nl _) (locLe_refl _)
  | @line l a s ts _ _ _ _ ih =>
    have := skip (w := '/' :: '/' :: a) ih (sh l _) (shift_le_advance ('/' :: '/' :: a) l s)
    exact this
  | @block l a s ts _ _ _ ih =>
    refine skip ih (advance_le _ _) ?_
    rw [adv (by exact not_ends_cr (a := c!"/*" ++ a ++ c!"*") (c := '/') (by decide) |> fun h ⟨x, hx⟩ => h ⟨x, by simpa using hx⟩)]
    exact locLe_refl _
  | @openBlock l a s ts _ _ hr _ ih =>
    refine skip ih (advance_le _ _) ?_
    rw [(advance_append (.inr (noRune_not_lf hr))).symm]
    exact locLe_refl _
  | @tok l k text lexeme s ts hs hc _ ih =>
    obtain ⟨toks, last, rfl, h2, h2', h3⟩ := ih
    have hpos := spells_length hs
    have hlt : LocLt l (shift l lexeme.length) := by unfold LocLt shift; exact .inr ⟨rfl, by simp only; omega⟩
    refine ⟨_ :: toks, last, rfl, ⟨?_, ?_⟩, ?_, ?_⟩
    · intro t ht
      rcases List.mem_cons.1 ht with rfl | ht
      · exact hlt
      · exact h2.1 t ht
    · exact List.pairwise_cons.2 ⟨fun t ht => (h3 t ht).1, h2.2⟩
    · intro t ht
      rcases List.mem_cons.1 ht with rfl | ht
      · exact (spells_proper hs).1
      · exact h2' t ht
    · intro t ht
      rcases List.mem_cons.1 ht with rfl | ht
      · exact ⟨locLe_refl _, (advance_le _ s).trans (shift_le_advance _ _ _)⟩
      · exact ⟨hlt.le.trans (h3 t ht).1, (h3 t ht).2.trans (shift_le_advance _ _ _)⟩

/-! ### Whole texts -/

theorem dotted_proper {sep : Str} {ts : List Token} {name : Str} {a b : Loc} (h : Dotted sep ts name a b) :
    ∀ t ∈ ts, t.kind ≠ .endOfInput ∧ t.kind ≠ .unexpectedChar := by
  induction h with
  | one ht => intro t h; rw [List.mem_singleton.1 h, ht]; decide
  | snoc _ hd ht ih =>
    intro t h
    simp only [List.mem_append, List.mem_cons, List.not_mem_nil, or_false] at h
    rcases h with h | rfl | rfl
    · exact ih t h
    · rw [hd]; decide
    · rw [ht]; decide

theorem G_proper {n : Nat} {ts : List Token} {e : Expr} (h : G pton k n ts e) :
    ∀ t ∈ ts, t.kind ≠ .endOfInput ∧ t.kind ≠ .unexpectedChar := by
  induction h with
  | true_ ht | false_ ht => intro t h; rw [List.mem_singleton.1 h, ht]; decide
  | numeral hb =>
    intro t h
    rw [List.mem_singleton.1 h]
    exact ⟨fun e => by (rw [e] at hb; cases hb), fun e => by (rw [e] at hb; cases hb)⟩
  | address ht hl ha hr =>
    intro t h
    simp only [List.mem_cons, List.not_mem_nil, or_false] at h
    rcases h with rfl | rfl | rfl | rfl
    · rw [ht]; decide
    · rw [hl]; decide
    · rw [ha]; decide
    · rw [hr]; decide
  | key _ hd | param _ hd => exact dotted_proper hd
  | attr hd ht =>
    intro t h
    simp only [List.mem_cons, List.not_mem_nil, or_false] at h
    rcases h with rfl | rfl
    · rw [hd]; decide
    · rw [ht]; decide
  | paren hl _ hr ih =>
    intro t h
    simp only [List.mem_append, List.mem_cons, List.not_mem_nil, or_false] at h
    rcases h with (rfl | h) | rfl
    · rw [hl]; decide
    · exact ih t h
    · rw [hr]; decide
  | up _ _ ih => exact ih
  | field _ hd ht ih =>
    intro t h
    simp only [List.mem_append, List.mem_cons, List.not_mem_nil, or_false] at h
    rcases h with h | rfl | rfl
    · exact ih t h
    · rw [hd]; decide
    · rw [ht]; decide
  | not ht _ ih | neg ht _ ih =>
    intro t h
    rcases List.mem_cons.1 h with rfl | h
    · rw [ht]; decide
    · exact ih t h
  | @bin o _ _ _ _ _ _ _ _ hi _ _ ih1 ih2 =>
    intro t h
    simp only [List.mem_append, List.mem_cons] at h
    rcases h with h | rfl | h
    · exact ih1 t h
    · have := (infix_inv hi).1
      exact ⟨fun e => by (rw [e] at this; cases this), fun e => by (rw [e] at this; cases this)⟩
    · exact ih2 t h
  | trailing _ ho ih =>
    intro t h
    simp only [List.mem_append, List.mem_cons, List.not_mem_nil, or_false] at h
    rcases h with h | rfl
    · exact ih t h
    · rw [ho]; decide

/-- The constraint of a list of tokens ending like that of a text. -/
theorem constraint_snoc {toks : List Token} {last : Token} {e : Expr}
    (hp : ∀ t ∈ toks, t.kind ≠ .endOfInput) (hl : last.kind = .endOfInput ∨ last.kind = .unexpectedChar) :
    Constraint pton k (toks ++ [last]) e ↔ last.kind = .endOfInput ∧ G pton k 0 toks e := by
  constructor
  · rintro ⟨a, b, h1, h2, h3⟩
    rcases h3 with rfl | ⟨t, b', rfl, ht⟩
    · rw [List.append_nil] at h1
      have := G_proper h2 last (by rw [← h1]; simp)
      rcases hl with h | h
      · exact absurd h this.1
      · exact absurd h this.2
    · rcases List.append_eq_append_iff.1 h1 with ⟨d, h4, h5⟩ | ⟨d, h4, h5⟩
      · cases d with
        | nil =>
          simp only [List.append_nil, List.nil_append, List.cons.injEq] at h4 h5
          rw [h5.1, ← h4]
          exact ⟨ht, h2⟩
        | cons x xs =>
          have := congrArg List.length h5
          simp at this
      · cases d with
        | nil =>
          simp only [List.append_nil, List.nil_append, List.cons.injEq] at h4 h5
          rw [← h5.1, h4]
          exact ⟨ht, h2⟩
        | cons x xs =>
          injection h5 with h5 _
          subst h5
          exact absurd ht (hp t (by rw [h4]; simp))
  · rintro ⟨h1, h2⟩
    exact ⟨toks, [last], rfl, h2, .inr ⟨last, [], rfl, h1⟩⟩

theorem tokenize_split (src : ConstraintSource) : ∃ toks last, tokenize src = toks ++ [last] ∧
    (∀ t ∈ toks, t.kind ≠ .endOfInput) ∧ (last.kind = .endOfInput ∨ last.kind = .unexpectedChar) := by
  obtain ⟨toks, last, r, h1, h2, _, h4⟩ := lexed_covers (tokenize_lexed src)
  refine ⟨toks, last, h1, fun t ht => (h2 t ht).1, ?_⟩
  rcases h4 with h | h
  · exact .inl h.1
  · exact .inr h.1

theorem parseConstraint_split {sys : Sys} {src : ConstraintSource} {e : Expr} :
    parseConstraint sys k src = .ok e ↔
      ∃ toks last, tokenize src = toks ++ [last] ∧ last.kind = .endOfInput ∧ G sys.inetPton6 k 0 toks e := by
  rw [parseConstraint_iff]
  obtain ⟨toks, last, h1, h2, h3⟩ := tokenize_split src
  rw [h1, constraint_snoc h2 h3]
  constructor
  · rintro ⟨h4, h5⟩; exact ⟨_, _, rfl, h4, h5⟩
  · rintro ⟨toks', last', h4, h5, h6⟩
    obtain ⟨h7, h8⟩ := List.append_inj' h4 rfl
    simp only [List.cons.injEq, and_true] at h8
    rw [h7, h8]
    exact ⟨h5, h6⟩

/-- The tokens of a text that ends properly. -/
theorem parseConstraint_tokens {sys : Sys} {src : ConstraintSource} {ts : List (Kind × Str)}
    (h : (tokenize src).map kindText = ts ++ [(.endOfInput, [])]) : ∃ toks last, tokenize src = toks ++ [last] ∧
      toks.map kindText = ts ∧ last.kind = .endOfInput ∧
      ∀ e, parseConstraint sys k src = .ok e ↔ G sys.inetPton6 k 0 toks e := by
  obtain ⟨toks, y, h1, h2, h3⟩ := map_append_inv h
  obtain ⟨last, rfl, h4, _⟩ := map_one_inv h3
  refine ⟨toks, last, h1, h2, h4, fun e => ?_⟩
  rw [parseConstraint_split]
  constructor
  · rintro ⟨toks', last', h5, h6, h7⟩
    rw [h1] at h5
    rw [(List.append_inj' h5 rfl).1]
    exact h7
  · intro h5
    exact ⟨_, _, h1, h4, h5⟩

end P4C
