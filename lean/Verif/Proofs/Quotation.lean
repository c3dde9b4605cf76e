import Verif.Proofs.QuoteNode
/-!
# The text of quotations
-/
namespace P4C
open Spec

theorem numeral_iff {z : Int} {s : Str} (h : 0 ≤ z) : Numeral z s ↔ s = intDec z := by
  constructor
  · rintro ⟨n, rfl, hc⟩
    exact canonical_unique hc (intDec_canonical rfl)
  · rintro rfl
    exact ⟨z.toNat, by omega, intDec_canonical (by omega)⟩

theorem columns_iff {a b : Loc} {s : Str} (h1 : 0 ≤ a.line) (h2 : 0 ≤ a.col) (h3 : 0 ≤ b.col) :
    Columns a b s ↔ s = explainLoc.columns a b := by
  unfold explainLoc.columns
  constructor
  · rintro (⟨g1, g2, g3, g4⟩ | ⟨g1, g2, g3, g4⟩ | ⟨g1, g2, g3⟩)
    · rw [if_pos g1, (numeral_iff (by omega)).1 g2, (numeral_iff (by omega)).1 g3, (numeral_iff (by omega)).1 g4]
    · rw [if_neg (by omega), if_pos g2, (numeral_iff (by omega)).1 g3, (numeral_iff (by omega)).1 g4]
    · rw [if_neg (by omega), if_neg (by omega), (numeral_iff (by omega)).1 g3]
  · rintro rfl
    split
    · exact .lines (by omega) ((numeral_iff (by omega)).2 rfl) ((numeral_iff (by omega)).2 rfl) ((numeral_iff (by omega)).2 rfl)
    · split
      · exact .columns (by omega) (by omega) ((numeral_iff (by omega)).2 rfl) ((numeral_iff (by omega)).2 rfl)
      · exact .single (by omega) (by omega) ((numeral_iff (by omega)).2 rfl)

theorem header_iff {a b : Loc} {s : Str} (h1 : 0 ≤ a.line) (h2 : 0 ≤ a.col) (h3 : 0 ≤ b.col) :
    Header a b s ↔ explainLoc a b = .ok s := by
  unfold explainLoc
  constructor
  · rintro (⟨g, g1, g2, g3⟩ | ⟨g, g1, g2⟩ | ⟨g, g1, g2⟩)
    · rw [g, (numeral_iff (by omega)).1 g1, (numeral_iff (by omega)).1 g2]
      dsimp only
      rcases g3 with ⟨k1, k2, k3⟩ | ⟨k1, k2, k3⟩ | ⟨k1, k2⟩
      · rw [if_pos k1, (numeral_iff (by omega)).1 k2, (numeral_iff (by omega)).1 k3]
      · rw [if_neg (by omega), if_pos k2, (numeral_iff (by omega)).1 k3]
      · rw [if_neg (by omega), if_neg (by omega)]
    · rw [g, (numeral_iff (by omega)).1 g1, (columns_iff h1 h2 h3).1 g2]
    · rw [g, (numeral_iff (by omega)).1 g1, (columns_iff h1 h2 h3).1 g2]
  · intro h
    cases hs : a.src with
    | notSet => rw [hs] at h; cases h
    | filePath f =>
      rw [hs] at h
      injection h with h
      subst h
      refine .file hs ((numeral_iff (by omega)).2 rfl) ((numeral_iff (by omega)).2 rfl) ?_
      split
      · exact .lines (by omega) ((numeral_iff (by omega)).2 rfl) ((numeral_iff (by omega)).2 rfl)
      · split
        · exact .columns (by omega) (by omega) ((numeral_iff (by omega)).2 rfl)
        · exact .single (by omega) (by omega)
    | tableName n =>
      rw [hs] at h
      injection h with h
      subst h
      exact .table hs ((numeral_iff (by omega)).2 rfl) ((columns_iff h1 h2 h3).2 rfl)
    | actionName n =>
      rw [hs] at h
      injection h with h
      subst h
      exact .action hs ((numeral_iff (by omega)).2 rfl) ((columns_iff h1 h2 h3).2 rfl)

theorem lineOf_iff {s line : Str} {n p : Nat} : LineOf s n line p ↔ ∃ ls rest, s = unlines ls ++ line ++ rest ∧
    (unlines ls).length = p ∧ ls.length = n ∧ (∀ l ∈ ls, '\n' ∉ l) ∧ '\n' ∉ line ∧ (rest = [] ∨ ∃ r, rest = '\n' :: r) := by
  constructor
  · rintro ⟨a, b, h1, h2, h3, h4, h5, h6⟩
    obtain ⟨ls, q, h9, h10, h11⟩ := lines_exist a
    have hq0 : q = [] := by
      rcases h4 with rfl | ⟨a', rfl⟩
      · exact (List.append_eq_nil_iff.1 h9.symm).2
      · rcases List.eq_nil_or_concat q with h | ⟨q', d, rfl⟩
        · exact h
        · rw [List.concat_eq_append, ← List.append_assoc] at h9
          have := (List.append_inj' h9 rfl).2
          simp only [List.cons.injEq, and_true] at this
          exact absurd (by rw [← this]; simp) h11
    rw [hq0, List.append_nil] at h9
    subst h9
    exact ⟨ls, b, h1, h2, by rw [← h3, unlines_count h10], h10, h5, h6⟩
  · rintro ⟨ls, rest, h1, h2, h3, h4, h5, h6⟩
    refine ⟨unlines ls, rest, h1, h2, by rw [unlines_count h4, h3], ?_, h5, h6⟩
    rcases unlines_end (ls := ls) with h | h
    · exact .inl h
    · exact .inr h

theorem line_cut {l l' r r' : Str} (h : l ++ r = l' ++ r') (h1 : '\n' ∉ l) (h1' : '\n' ∉ l')
    (h2 : r = [] ∨ ∃ t, r = '\n' :: t) (h2' : r' = [] ∨ ∃ t, r' = '\n' :: t) : l = l' ∧ r = r' := by
  induction l generalizing l' with
  | nil =>
    cases l' with
    | nil => exact ⟨rfl, h⟩
    | cons c l' =>
      rcases h2 with rfl | ⟨t, rfl⟩
      · simp at h
      · simp only [List.nil_append, List.cons_append, List.cons.injEq] at h
        exact absurd (by rw [← h.1]; simp) h1'
  | cons c l ih =>
    cases l' with
    | nil =>
      rcases h2' with rfl | ⟨t, rfl⟩
      · simp at h
      · simp only [List.nil_append, List.cons_append, List.cons.injEq] at h
        exact absurd (by rw [← h.1]; simp) h1
    | cons d l' =>
      simp only [List.cons_append, List.cons.injEq] at h
      obtain ⟨rfl, h⟩ := h
      obtain ⟨rfl, rfl⟩ := ih h (fun x => h1 (List.mem_cons_of_mem _ x)) (fun x => h1' (List.mem_cons_of_mem _ x))
      exact ⟨rfl, rfl⟩

theorem unlines_cut : ∀ {ls ls' : List Str} {r r' : Str}, unlines ls ++ r = unlines ls' ++ r' → ls.length = ls'.length →
    (∀ l ∈ ls, '\n' ∉ l) → (∀ l ∈ ls', '\n' ∉ l) → ls = ls' ∧ r = r'
  | [], [], _, _, h, _, _, _ => ⟨rfl, h⟩
  | [], _ :: _, _, _, _, h, _, _ => by simp at h
  | _ :: _, [], _, _, _, h, _, _ => by simp at h
  | l :: ls, l' :: ls', r, r', h, hl, h1, h2 => by
    rw [unlines_cons, unlines_cons, List.append_assoc, List.append_assoc] at h
    obtain ⟨rfl, e⟩ := line_cut h (h1 _ (by simp)) (h2 _ (by simp)) (.inr ⟨_, rfl⟩) (.inr ⟨_, rfl⟩)
    simp only [List.cons_append, List.cons.injEq, true_and] at e
    obtain ⟨rfl, rfl⟩ := unlines_cut e (by simpa using hl) (fun x hx => h1 x (by simp [hx])) (fun x hx => h2 x (by simp [hx]))
    exact ⟨rfl, rfl⟩

theorem context_iff {s line rest margin ctx : Str} {ls : List Str} (h1 : s = unlines ls ++ line ++ rest)
    (h4 : ∀ l ∈ ls, '\n' ∉ l) : Context s ls.length margin ctx ↔ ctx = contextOf ls margin := by
  rcases List.eq_nil_or_concat ls with rfl | ⟨ks, k, rfl⟩
  · constructor
    · rintro (_ | ⟨h, _⟩)
      · rfl
      · simp at h
    · rintro rfl
      exact .first rfl
  · rw [List.concat_eq_append] at *
    have hk : LineOf s ks.length k (unlines ks).length :=
      lineOf_iff.2 ⟨ks, '\n' :: (line ++ rest), by rw [h1, unlines_append]; simp [unlines], rfl, rfl,
        fun l hl => h4 l (by simp [hl]), h4 k (by simp), .inr ⟨_, rfl⟩⟩
    have e : contextOf (ks ++ [k]) margin = margin ++ c!" | " ++ k ++ c!"\n" := by simp [contextOf]
    have el : (ks ++ [k]).length - 1 = ks.length := by simp
    constructor
    · rintro (h | ⟨_, h⟩)
      · simp at h
      · rw [el] at h
        obtain ⟨ls', r', g1, g2, g3, g4, g5, g6⟩ := lineOf_iff.1 h
        rw [h1, unlines_append, show unlines [k] = k ++ ['\n'] by simp [unlines]] at g1
        simp only [List.append_assoc] at g1
        obtain ⟨rfl, e2⟩ := unlines_cut g1 g3.symm (fun l hl => h4 l (by simp [hl])) g4
        obtain ⟨rfl, _⟩ := line_cut e2 (h4 k (by simp)) g5 (.inr ⟨_, rfl⟩) g6
        rw [e]
    · rintro rfl
      rw [e]
      exact .previous (by simp) (el ▸ hk)

theorem getline_some {s line rest : Str} (h : getline s = some (line, rest)) : s ≠ [] ∧ '\n' ∉ line ∧
    (s = line ++ '\n' :: rest ∨ s = line ∧ rest = []) := by
  have hne : s ≠ [] := by rintro rfl; cases h
  refine ⟨hne, ?_⟩
  obtain ⟨ls, q, rfl, h1, h2⟩ := lines_exist s
  cases ls with
  | nil =>
    have e : unlines [] ++ q = q ++ [] := by simp [unlines]
    rw [e] at h hne ⊢
    obtain ⟨x, hx⟩ := getline_last h2 hne (.inl rfl)
    have h5 : x = [] := by
      cases q with
      | nil => simp at hne
      | cons c q =>
        unfold getline at hx
        simp only [List.append_nil, Option.some.injEq, Prod.mk.injEq] at hx
        rw [← hx.2, List.drop_eq_nil_iff]
        have : (c :: q).dropWhile (· ≠ '\n') = [] := by
          rw [← List.append_nil (c :: q), List.dropWhile_append_of_pos (by
            intro y hy
            simp only [ne_eq, decide_not, Bool.not_eq_eq_eq_not, Bool.not_true, decide_eq_false_iff_not]
            rintro rfl
            exact h2 hy)]
          rfl
        rw [this]; simp
    rw [h] at hx
    simp only [Option.some.injEq, Prod.mk.injEq] at hx
    exact ⟨hx.1 ▸ h2, .inr ⟨by rw [hx.1]; simp, hx.2.trans h5⟩⟩
  | cons l ls =>
    rw [unlines_cons, List.append_assoc, List.cons_append, getline_line (h1 l (by simp))] at h
    simp only [Option.some.injEq, Prod.mk.injEq] at h
    obtain ⟨rfl, rfl⟩ := h
    exact ⟨h1 _ (by simp), .inl (by rw [unlines_cons]; simp)⟩

theorem discardLines_ok : ∀ {n : Nat} {s s' : Str}, discardLines n s = .ok s' → s' ≠ [] →
    ∃ ls, s = unlines ls ++ s' ∧ ls.length = n ∧ ∀ l ∈ ls, '\n' ∉ l
  | 0, s, s', h, _ => by
    simp only [discardLines, Res.ok.injEq] at h
    exact ⟨[], by simp [unlines, h], rfl, by simp⟩
  | n + 1, s, s', h, hne => by
    unfold discardLines at h
    split at h
    · rename_i line rest hg
      obtain ⟨ls, h1, h2, h3⟩ := discardLines_ok h hne
      obtain ⟨_, g2, g | ⟨_, rfl⟩⟩ := getline_some hg
      · exact ⟨line :: ls, by rw [g, unlines_cons, h1]; simp, by simp [h2], by simpa using ⟨g2, h3⟩⟩
      · exact absurd (List.append_eq_nil_iff.1 h1.symm).2 hne
    · cases h

theorem contextLines_ok {pre s out s' : Str} (h : contextLines pre 1 s = .ok (out, s')) (hne : s' ≠ []) :
    ∃ l, s = l ++ '\n' :: s' ∧ '\n' ∉ l := by
  unfold contextLines at h
  split at h
  · rename_i line rest hg
    simp only [contextLines, Res.ok_bind, Res.ok.injEq, Prod.mk.injEq] at h
    obtain ⟨_, rfl⟩ := h
    obtain ⟨_, g2, g | ⟨_, rfl⟩⟩ := getline_some hg
    · exact ⟨line, g, g2⟩
    · exact absurd rfl hne
  · cases h

theorem discardLines_total : ∀ (n : Nat) (s : Str), (∃ s', discardLines n s = .ok s') ∨ discardLines n s = .err .invalidArgument
  | 0, s => .inl ⟨s, rfl⟩
  | n + 1, s => by
    unfold discardLines
    split
    · exact discardLines_total n _
    · exact .inr rfl

theorem contextLines_total (pre : Str) : ∀ (n : Nat) (s : Str),
    (∃ r, contextLines pre n s = .ok r) ∨ contextLines pre n s = .err .invalidArgument
  | 0, s => .inl ⟨_, rfl⟩
  | n + 1, s => by
    unfold contextLines
    split
    · rename_i l r _
      rcases contextLines_total pre n r with ⟨x, h⟩ | h
      · rw [h]; exact .inl ⟨_, rfl⟩
      · rw [h]; exact .inr rfl
    · exact .inr rfl

/-- A quotation is tried only if the line exists. -/
theorem quote_line_of {src : ConstraintSource} {a b : Loc} (h : quote src a b ≠ .err .invalidArgument) (hd : a ≠ b)
    (hl : src.loc.line ≤ a.line) : ∃ ls line rest, src.str = unlines ls ++ line ++ rest ∧ (∀ l ∈ ls, '\n' ∉ l) ∧
      '\n' ∉ line ∧ (rest = [] ∨ ∃ r, rest = '\n' :: r) ∧ line ++ rest ≠ [] ∧ a.line = src.loc.line + ls.length := by
  unfold quote at h
  rw [if_neg hd] at h
  dsimp only at h
  obtain ⟨s1, h1⟩ := (discardLines_total (a.line - (if a.line = src.loc.line then 0 else 1) - src.loc.line).toNat
    src.str).resolve_right (fun e => h (by rw [e]; rfl))
  rw [h1, Res.ok_bind] at h
  obtain ⟨⟨ctx, s2⟩, h2⟩ := (contextLines_total (List.replicate (intDec (a.line + 1)).length ' ' ++ c!" | ")
    (a.line - max src.loc.line (a.line - (if a.line = src.loc.line then 0 else 1))).toNat s1).resolve_right
    (fun e => h (by rw [e]; rfl))
  rw [h2, Res.ok_bind] at h
  have key : ∀ line rest, getline s2 = some (line, rest) → ∃ rest', s2 = line ++ rest' ∧ '\n' ∉ line ∧
      (rest' = [] ∨ ∃ r, rest' = '\n' :: r) ∧ s2 ≠ [] := by
    intro line rest hg
    obtain ⟨g1, g2, g | ⟨g, _⟩⟩ := getline_some hg
    · exact ⟨_, g, g2, .inr ⟨_, rfl⟩, g1⟩
    · exact ⟨[], by simp [g], g2, .inl rfl, g1⟩
  cases hg : getline s2 with
  | none => rw [hg] at h; exact absurd rfl h
  | some x =>
    obtain ⟨line, rest⟩ := x
    obtain ⟨rest', k1, k2, k3, k4⟩ := key _ _ hg
    by_cases he : a.line = src.loc.line
    · rw [if_pos he] at h1 h2
      have e1 : (a.line - 0 - src.loc.line).toNat = 0 := by omega
      have e2 : (a.line - max src.loc.line (a.line - 0)).toNat = 0 := by omega
      rw [e1] at h1
      rw [e2] at h2
      simp only [discardLines, contextLines, Res.ok.injEq, Prod.mk.injEq] at h1 h2
      refine ⟨[], line, rest', ?_, by simp, k2, k3, k1 ▸ k4, by simp [he]⟩
      rw [h1, h2.2, k1]
      simp [unlines]
    · rw [if_neg he] at h1 h2
      have e2 : (a.line - max src.loc.line (a.line - 1)).toNat = 1 := by omega
      rw [e2] at h2
      obtain ⟨l, g1, g2⟩ := contextLines_ok h2 k4
      obtain ⟨ls, m1, m2, m3⟩ := discardLines_ok h1 (by rw [g1]; simp)
      refine ⟨ls ++ [l], line, rest', ?_, ?_, k2, k3, k1 ▸ k4, ?_⟩
      · rw [m1, g1, k1, unlines_append]
        simp [unlines]
      · intro x hx
        rcases List.mem_append.1 hx with hx | hx
        · exact m3 x hx
        · simp only [List.mem_singleton] at hx
          exact hx ▸ g2
      · simp only [List.length_append, List.length_singleton, m2]
        omega

theorem stringFill_iff {n : Int} {c : Char} {s : Str} : stringFill n c = .ok s ↔ ∃ k : Nat, n = k ∧ s = List.replicate k c := by
  unfold stringFill
  constructor
  · intro h
    split at h
    · cases h
    · injection h with h
      exact ⟨n.toNat, by omega, h.symm⟩
  · rintro ⟨k, rfl, rfl⟩
    rw [if_neg (by omega)]
    rfl

theorem quote_iff {src : ConstraintSource} {a b : Loc} {q : Str} (hl : src.loc.line ≤ a.line) (h0 : 0 ≤ a.line)
    (hc : 0 ≤ a.col) : quote src a b = .ok q ↔ Excerpt src a b q := by
  by_cases hd : a = b
  · constructor
    · intro h
      unfold quote at h
      rw [if_pos hd] at h
      injection h with h
      subst h
      exact .empty hd
    · rintro (_ | ⟨h, _⟩)
      · unfold quote
        rw [if_pos hd]
      · exact absurd hd h
  · constructor
    · intro h
      obtain ⟨ls, line, rest, h1, h2, h3, h4, h5, h6⟩ := quote_line_of (by rw [h]; nofun) hd hl
      rw [quote_eq h1 h2 h3 h4 h5 h6 hd hc, Res.bind_eq_ok] at h
      obtain ⟨mk, hm, h⟩ := h
      obtain ⟨k, hk, rfl⟩ := stringFill_iff.1 hm
      injection h with h
      have en : (a.line - src.loc.line).toNat = ls.length := by omega
      have := Excerpt.line (src := src) (a := a) (b := b) (num := intDec (a.line + 1)) (p := (unlines ls).length) (len := k)
        (ctx := contextOf ls (List.replicate (intDec (a.line + 1)).length ' ')) (line := line) hd
        ((numeral_iff (by omega)).2 rfl)
        (en ▸ lineOf_iff.2 ⟨ls, rest, h1, rfl, rfl, h2, h3, h4⟩) ?_ (en ▸ (context_iff h1 h2).2 rfl) ?_ ?_
      · rw [← h]
        simpa only [List.append_assoc] using this
      · rw [h1, List.append_assoc, List.length_append]
        have := List.length_pos_iff.2 h5
        omega
      · intro e
        rw [if_pos e] at hk
        omega
      · intro e
        rw [if_neg e] at hk
        omega
    · rintro (h | ⟨_, h1, h2, h3, h4, h5, h6⟩)
      · exact absurd h hd
      · rename_i num ctx line p len _
        obtain ⟨ls, rest, g1, g2, g3, g4, g5, g6⟩ := lineOf_iff.1 h2
        have e1 := (numeral_iff (by omega)).1 h1
        subst e1
        rw [← g3] at h4
        have e2 := (context_iff g1 g4).1 h4
        subst e2
        rw [quote_eq g1 g4 g5 g6 ?_ (by omega) hd hc, stringFill_iff.2 ⟨len, ?_, rfl⟩, Res.ok_bind]
        · simp only [List.append_assoc]
        · split
          · rename_i e
            have := h5 e
            omega
          · rename_i e
            have := h6 e
            omega
        · intro e
          rw [List.append_assoc] at g1
          rw [g1, e, List.append_nil] at h3
          omega

theorem quoteSub_iff {src : ConstraintSource} {a b : Loc} {text : Str} (hl : src.loc.line ≤ a.line) (h0 : 0 ≤ a.line)
    (hc : 0 ≤ a.col) (hb : 0 ≤ b.col) : quoteSub src a b = .ok text ↔ Quotation src a b text := by
  unfold quoteSub Quotation
  by_cases hs : a.src = src.loc.src ∧ b.src = src.loc.src
  · obtain ⟨s1, s2⟩ := hs
    rw [if_neg (by simp [haveSameSource, s1, s2])]
    simp only [Res.bind_eq_ok, Res.ok.injEq, s1, s2, true_and]
    constructor
    · rintro ⟨h, h1, q, h2, rfl⟩
      exact ⟨h, q, (header_iff h0 hc hb).2 h1, (quote_iff hl h0 hc).1 h2, rfl⟩
    · rintro ⟨h, q, h1, h2, rfl⟩
      exact ⟨h, (header_iff h0 hc hb).1 h1, q, (quote_iff hl h0 hc).2 h2, rfl⟩
  · rw [if_pos]
    · constructor
      · intro h; cases h
      · rintro ⟨h1, h2, _⟩
        exact absurd ⟨h1, h2⟩ hs
    · simp only [haveSameSource, Bool.or_eq_true, Bool.not_eq_true', decide_eq_false_iff_not]
      grind

theorem quote_crash_iff {src : ConstraintSource} {a b : Loc} (hl : src.loc.line ≤ a.line) (h0 : 0 ≤ a.line)
    (hc : 0 ≤ a.col) : quote src a b = .crash ↔ a ≠ b ∧ ∃ num line p, Numeral (a.line + 1) num ∧
      LineOf src.str (a.line - src.loc.line).toNat line p ∧ p < src.str.length ∧
      (a.line = b.line ∧ b.col < a.col ∨ a.line ≠ b.line ∧ line.length < num.length + 3 + a.col.toNat) := by
  have hf : ∀ (n : Int) (c : Char) (f : Str → Str), (stringFill n c >>= fun x => .ok (f x)) = Res.crash ↔ n < 0 := by
    intro n c f
    unfold stringFill
    split
    · exact ⟨fun _ => by assumption, fun _ => rfl⟩
    · exact ⟨nofun, fun h => absurd h (by assumption)⟩
  constructor
  · intro h
    have hd : a ≠ b := by
      intro e
      unfold quote at h
      rw [if_pos e] at h
      cases h
    obtain ⟨ls, line, rest, h1, h2, h3, h4, h5, h6⟩ := quote_line_of (by rw [h]; nofun) hd hl
    rw [quote_eq h1 h2 h3 h4 h5 h6 hd hc, hf] at h
    have en : (a.line - src.loc.line).toNat = ls.length := by omega
    refine ⟨hd, intDec (a.line + 1), line, (unlines ls).length, (numeral_iff (by omega)).2 rfl,
      en ▸ lineOf_iff.2 ⟨ls, rest, h1, rfl, rfl, h2, h3, h4⟩, ?_, ?_⟩
    · rw [h1, List.append_assoc, List.length_append]
      have := List.length_pos_iff.2 h5
      omega
    · by_cases e : a.line = b.line
      · rw [if_pos e] at h
        exact .inl ⟨e, by omega⟩
      · rw [if_neg e] at h
        exact .inr ⟨e, by omega⟩
  · rintro ⟨hd, num, line, p, h1, h2, h3, h4⟩
    obtain ⟨ls, rest, g1, g2, g3, g4, g5, g6⟩ := lineOf_iff.1 h2
    have e1 := (numeral_iff (by omega)).1 h1
    subst e1
    rw [quote_eq g1 g4 g5 g6 ?_ (by omega) hd hc, hf]
    · rcases h4 with ⟨e, h4⟩ | ⟨e, h4⟩
      · rw [if_pos e]; omega
      · rw [if_neg e]; omega
    · intro e
      rw [List.append_assoc] at g1
      rw [g1, e, List.append_nil] at h3
      omega

theorem quote_total (src : ConstraintSource) (a b : Loc) :
    (∃ q, quote src a b = .ok q) ∨ quote src a b = .err .invalidArgument ∨ quote src a b = .crash := by
  have hf : ∀ (n : Int) (c : Char), (∃ s, stringFill n c = .ok s) ∨ stringFill n c = .crash := by
    intro n c
    unfold stringFill
    split
    · exact .inr rfl
    · exact .inl ⟨_, rfl⟩
  unfold quote
  by_cases hd : a = b
  · rw [if_pos hd]; exact .inl ⟨_, rfl⟩
  rw [if_neg hd]
  dsimp only
  rcases discardLines_total (a.line - (if a.line = src.loc.line then 0 else 1) - src.loc.line).toNat src.str with
    ⟨s1, h1⟩ | h1
  · rw [h1, Res.ok_bind]
    rcases contextLines_total (List.replicate (intDec (a.line + 1)).length ' ' ++ c!" | ")
      (a.line - max src.loc.line (a.line - (if a.line = src.loc.line then 0 else 1))).toNat s1 with ⟨⟨ctx, s2⟩, h2⟩ | h2
    · rw [h2, Res.ok_bind]
      dsimp only
      cases getline s2 with
      | none => exact .inr (.inl rfl)
      | some x =>
        dsimp only
        rcases hf a.col ' ' with ⟨pad, h3⟩ | h3
        · rw [h3, Res.ok_bind]
          rcases hf (if a.line = b.line then b.col - a.col else (x.1.length : Int) -
            ((List.replicate (intDec (a.line + 1)).length ' ' ++ c!" | " ++ pad).length : Int)) '^' with ⟨mk, h4⟩ | h4
          · rw [h4, Res.ok_bind]; exact .inl ⟨_, rfl⟩
          · rw [h4]; exact .inr (.inr rfl)
        · rw [h3]; exact .inr (.inr rfl)
    · rw [h2]; exact .inr (.inl rfl)
  · rw [h1]; exact .inr (.inl rfl)

theorem explain_total (a b : Loc) :
    (∃ h, explainLoc a b = .ok h) ∧ a.src ≠ .notSet ∨ explainLoc a b = .err .invalidArgument ∧ a.src = .notSet := by
  by_cases h : a.src = .notSet
  · right
    unfold explainLoc
    rw [h]
    exact ⟨rfl, rfl⟩
  · exact .inl ⟨explain_ok h, h⟩

theorem quoteSub_total (src : ConstraintSource) (a b : Loc) :
    (∃ q, quoteSub src a b = .ok q) ∨ quoteSub src a b = .err .invalidArgument ∨ quoteSub src a b = .crash := by
  unfold quoteSub
  split
  · exact .inr (.inl rfl)
  · rcases explain_total a b with ⟨⟨h, h1⟩, _⟩ | ⟨h1, _⟩
    · rw [h1, Res.ok_bind]
      rcases quote_total src a b with ⟨q, h2⟩ | h2 | h2
      · rw [h2]; exact .inl ⟨_, rfl⟩
      · rw [h2]; exact .inr (.inl rfl)
      · rw [h2]; exact .inr (.inr rfl)
    · rw [h1]; exact .inr (.inl rfl)

theorem quoteSub_crash_iff {src : ConstraintSource} {a b : Loc} : quoteSub src a b = .crash ↔
    a.src = src.loc.src ∧ b.src = src.loc.src ∧ src.loc.src ≠ .notSet ∧ quote src a b = .crash := by
  unfold quoteSub
  by_cases hs : a.src = src.loc.src ∧ b.src = src.loc.src
  · obtain ⟨s1, s2⟩ := hs
    rw [if_neg (by simp [haveSameSource, s1, s2])]
    simp only [s1, s2, true_and]
    rcases explain_total a b with ⟨⟨h, h1⟩, h2⟩ | ⟨h1, h2⟩
    · rw [h1, Res.ok_bind]
      rw [s1] at h2
      rcases quote_total src a b with ⟨q, h3⟩ | h3 | h3 <;> rw [h3] <;> simp [h2, Res.ok_bind, Res.err_bind]
    · rw [h1, Res.err_bind]
      rw [s1] at h2
      simp [h2]
  · rw [if_pos]
    · constructor
      · intro h; cases h
      · rintro ⟨h1, h2, _⟩
        exact absurd ⟨h1, h2⟩ hs
    · simp only [haveSameSource, Bool.or_eq_true, Bool.not_eq_true', decide_eq_false_iff_not]
      grind

end P4C
