import Verif.Proofs.GrammarMore
import Verif.Spec.Quote
/-!
# Quoting
-/
namespace P4C
open Spec

/-- Lines, each followed by a line break. -/
def unlines (ls : List Str) : Str := (ls.map (· ++ ['\n'])).flatten

theorem unlines_cons (l : Str) (ls : List Str) : unlines (l :: ls) = l ++ '\n' :: unlines ls := by
  simp [unlines]

theorem unlines_append (a b : List Str) : unlines (a ++ b) = unlines a ++ unlines b := by
  simp [unlines]

theorem lines_exist (s : Str) : ∃ ls q, s = unlines ls ++ q ∧ (∀ l ∈ ls, '\n' ∉ l) ∧ '\n' ∉ q := by
  induction s with
  | nil => exact ⟨[], [], rfl, by simp, by simp⟩
  | cons c s ih =>
    obtain ⟨ls, q, rfl, h1, h2⟩ := ih
    by_cases hc : c = '\n'
    · subst hc
      exact ⟨[] :: ls, q, by rw [unlines_cons]; rfl, by simpa using h1, h2⟩
    · cases ls with
      | nil => exact ⟨[], c :: q, rfl, by simp, by simp [h2, Ne.symm hc]⟩
      | cons l ls =>
        refine ⟨(c :: l) :: ls, q, by simp [unlines_cons], ?_, h2⟩
        intro x hx
        rcases List.mem_cons.1 hx with rfl | hx
        · have := h1 l (by simp)
          simp [this, Ne.symm hc]
        · exact h1 x (by simp [hx])

theorem getline_line {l : Str} (h : '\n' ∉ l) (s : Str) : getline (l ++ '\n' :: s) = some (l, s) := by
  have h1 : (l ++ '\n' :: s).takeWhile (· ≠ '\n') = l := by
    rw [List.takeWhile_append_of_pos (by intro c hc; simp; rintro rfl; exact h hc)]
    simp
  have h2 : (l ++ '\n' :: s).dropWhile (· ≠ '\n') = '\n' :: s := by
    rw [List.dropWhile_append_of_pos (by intro c hc; simp; rintro rfl; exact h hc)]
    simp
  have : ∀ x : Str, x ≠ [] → getline x = some (x.takeWhile (· ≠ '\n'), (x.dropWhile (· ≠ '\n')).drop 1) := by
    intro x hx; cases x with
    | nil => exact absurd rfl hx
    | cons => rfl
  rw [this _ (by simp), h1, h2]
  rfl

theorem getline_last {l r : Str} (h : '\n' ∉ l) (hne : l ++ r ≠ []) (hr : r = [] ∨ ∃ r', r = '\n' :: r') :
    ∃ x, getline (l ++ r) = some (l, x) := by
  rcases hr with rfl | ⟨r', rfl⟩
  · rw [List.append_nil]
    cases l with
    | nil => exact absurd rfl hne
    | cons c cs =>
      refine ⟨((c :: cs).dropWhile (· ≠ '\n')).drop 1, ?_⟩
      have : (c :: cs).takeWhile (· ≠ '\n') = c :: cs :=
        takeWhile_all (by intro x hx; simp only [ne_eq, decide_eq_true_eq]; rintro rfl; exact h hx)
      change some ((c :: cs).takeWhile (· ≠ '\n'), _) = _
      rw [this]
  · exact ⟨r', getline_line h r'⟩

theorem discardLines_unlines : ∀ (n : Nat) (ls : List Str) (s : Str), n ≤ ls.length → (∀ l ∈ ls, '\n' ∉ l) →
    discardLines n (unlines ls ++ s) = .ok (unlines (ls.drop n) ++ s)
  | 0, ls, s, _, _ => by simp [discardLines]
  | n + 1, [], s, h, _ => by simp at h
  | n + 1, l :: ls, s, h, hl => by
    unfold discardLines
    rw [unlines_cons, List.append_assoc, List.cons_append, getline_line (hl l (by simp))]
    dsimp only
    rw [discardLines_unlines n ls s (by simpa using h) fun x hx => hl x (by simp [hx])]
    rfl

/-- Carriage returns only at the end. -/
def CrEnd (x : Str) : Prop := ∀ a b, x = a ++ '\r' :: b → b = []

theorem crEnd_cases {x : Str} (h : CrEnd x) : '\r' ∉ x ∨ ∃ y, x = y ++ ['\r'] ∧ '\r' ∉ y := by
  by_cases hx : '\r' ∈ x
  · obtain ⟨a, b, rfl⟩ := List.append_of_mem hx
    have := h a b rfl
    subst this
    refine .inr ⟨a, rfl, fun ha => ?_⟩
    obtain ⟨c, d, rfl⟩ := List.append_of_mem ha
    have := h c (d ++ ['\r']) (by simp)
    simp at this
  · exact .inl hx

/-- The location after lines and a part of a line. -/
theorem advance_lines {l : Loc} {ls : List Str} {q : Str} (h : ∀ x ∈ ls, '\n' ∉ x ∧ CrEnd x) (hq : '\n' ∉ q ∧ '\r' ∉ q) :
    advance l (unlines ls ++ q) =
      { l with line := l.line + ls.length, col := (if ls = [] then l.col else 0) + q.length } := by
  have plain : ∀ {l : Loc} {x : Str}, '\n' ∉ x ∧ '\r' ∉ x → advance l x = shift l x.length := by
    intro l x hx
    apply advance_plain
    intro c hc
    exact ⟨fun e => hx.2 (e ▸ hc), fun e => hx.1 (e ▸ hc)⟩
  induction ls generalizing l with
  | nil => simp [unlines, plain hq, shift]
  | cons x ls ih =>
    have hx := h x (by simp)
    have hcr : ¬ ∃ y, x ++ ['\n'] = y ++ ['\r'] := not_ends_cr (by decide)
    rw [unlines_cons, List.append_assoc, List.cons_append]
    have e1 : x ++ '\n' :: (unlines ls ++ q) = (x ++ ['\n']) ++ (unlines ls ++ q) := by simp
    have e2 : advance l (x ++ ['\n']) = { l with line := l.line + 1, col := 0 } := by
      rcases crEnd_cases hx.2 with hc | ⟨y, rfl, hy⟩
      · rw [advance_append (.inl (fun ⟨y, hy⟩ => hc (by rw [hy]; simp)))]
        rw [plain ⟨hx.1, hc⟩]
        rfl
      · have hy' : '\n' ∉ y := fun hm => hx.1 (List.mem_append_left _ hm)
        rw [List.append_assoc, advance_append (.inl (fun ⟨z, hz⟩ => hy (by rw [hz]; simp))), plain ⟨hy', hy⟩]
        rfl
    rw [e1, advance_append (.inl hcr), e2, ih fun y hy => h y (by simp [hy])]
    simp only [List.length_cons, reduceCtorEq, if_false, Loc.mk.injEq, and_true]
    constructor
    · omega
    · split <;> simp

theorem contextLines_one {pre l : Str} (h : '\n' ∉ l) (s : Str) :
    contextLines pre 1 (l ++ '\n' :: s) = .ok (pre ++ l ++ c!"\n", s) := by
  unfold contextLines
  rw [getline_line h]
  simp [contextLines, Res.ok_bind]

/-- The context shown before the key line: the line before it, if there is one. -/
def contextOf (ls : List Str) (margin : Str) : Str :=
  match ls.getLast? with
  | none => []
  | some l => margin ++ c!" | " ++ l ++ c!"\n"

/-- What `Quote` computes, for an interval that starts after the lines `ls`, at column `col` of `line`. -/
theorem quote_eq {src : ConstraintSource} {ls : List Str} {line rest : Str} {start stop : Loc}
    (hsrc : src.str = unlines ls ++ line ++ rest) (hls : ∀ l ∈ ls, '\n' ∉ l) (hl : '\n' ∉ line)
    (hr : rest = [] ∨ ∃ r, rest = '\n' :: r) (hne : line ++ rest ≠ []) (hstart : start.line = src.loc.line + ls.length)
    (hd : start ≠ stop) (hcol : 0 ≤ start.col) :
    quote src start stop =
      (stringFill (if start.line = stop.line then stop.col - start.col
          else (line.length : Int) - ((intDec (start.line + 1)).length + 3 + start.col.toNat : Nat)) '^' >>= fun marker =>
        .ok (contextOf ls (List.replicate (intDec (start.line + 1)).length ' ') ++
          intDec (start.line + 1) ++ c!" | " ++ line ++ c!"\n" ++
          List.replicate (intDec (start.line + 1)).length ' ' ++ c!" | " ++ List.replicate start.col.toNat ' ' ++
          marker ++ c!"\n")) := by
  obtain ⟨x, hx⟩ := getline_last hl hne hr
  have hpad : stringFill start.col ' ' = .ok (List.replicate start.col.toNat ' ') := by
    unfold stringFill; rw [if_neg (by omega)]
  unfold quote
  rw [if_neg hd, hsrc]
  rcases List.eq_nil_or_concat ls with rfl | ⟨ks, k, rfl⟩
  · have e0 : start.line = src.loc.line := by simpa using hstart
    simp only [e0, if_true, Int.sub_zero, Int.sub_self, Int.toNat_zero, discardLines, Res.ok_bind]
    have e1 : (src.loc.line - max src.loc.line src.loc.line).toNat = 0 := by omega
    simp only [e1, contextLines, Res.ok_bind, unlines, List.map_nil, List.flatten_nil, List.nil_append, hx, hpad,
      contextOf, List.getLast?_nil]
    have em : (List.replicate (intDec (src.loc.line + 1)).length ' ' ++ c!" | " ++
        List.replicate start.col.toNat ' ').length = (intDec (src.loc.line + 1)).length + 3 + start.col.toNat := by
      simp; omega
    rw [em]
    simp only [List.append_assoc]
  · rw [List.concat_eq_append] at *
    have hn : start.line = src.loc.line + ks.length + 1 := by simpa [Int.add_assoc] using hstart
    have e0 : start.line ≠ src.loc.line := by omega
    have e1 : (start.line - 1 - src.loc.line).toNat = ks.length := by omega
    have e2 : (start.line - max src.loc.line (start.line - 1)).toNat = 1 := by omega
    have hk : '\n' ∉ k := hls k (by simp)
    have e3 : discardLines ks.length (unlines (ks ++ [k]) ++ line ++ rest) =
        .ok (k ++ '\n' :: (line ++ rest)) := by
      rw [List.append_assoc, discardLines_unlines _ _ _ (by simp) hls]
      simp [unlines]
    simp only [if_neg e0, e1, e2, e3, Res.ok_bind, contextLines_one hk, hx, hpad,
      contextOf, List.getLast?_concat]
    have em : (List.replicate (intDec (start.line + 1)).length ' ' ++ c!" | " ++
        List.replicate start.col.toNat ' ').length = (intDec (start.line + 1)).length + 3 + start.col.toNat := by
      simp; omega
    rw [em]
    simp only [List.append_assoc]

theorem explain_ok {start stop : Loc} (h : start.src ≠ .notSet) : ∃ h, explainLoc start stop = .ok h := by
  unfold explainLoc
  cases hs : start.src with
  | notSet => exact absurd hs h
  | _ => exact ⟨_, rfl⟩

theorem quoteSub_eq {src : ConstraintSource} {start stop : Loc} (h1 : start.src = src.loc.src)
    (h2 : stop.src = src.loc.src) (h : src.loc.src ≠ .notSet) :
    ∃ header, quoteSub src start stop = quote src start stop >>= fun q => .ok (header ++ q) := by
  obtain ⟨hd, he⟩ := explain_ok (start := start) (stop := stop) (by rw [h1]; exact h)
  refine ⟨hd, ?_⟩
  unfold quoteSub
  rw [if_neg (by simp [haveSameSource, h1, h2]), he, Res.ok_bind]

theorem advance_src (l : Loc) (s : Str) : (advance l s).src = l.src := by
  induction s generalizing l with
  | nil => rfl
  | cons c cs ih =>
    unfold advance
    rw [ih]
    split
    · rfl
    · split <;> rfl

/-- A non-empty part of a line can be quoted: the text shows that line, with the part underlined. -/
theorem quote_part {src : ConstraintSource} {ls : List Str} {p m r rest : Str}
    (hsrc : src.str = unlines ls ++ (p ++ m ++ r) ++ rest) (hls : ∀ l ∈ ls, '\n' ∉ l) (hl : '\n' ∉ p ++ m ++ r)
    (hr : rest = [] ∨ ∃ r', rest = '\n' :: r') (hm : m ≠ []) (hmr : '\r' ∉ m) (hcr : CrLf src.str) (hset : src.loc.src ≠ .notSet)
    (hcol : 0 ≤ src.loc.col) :
    ∃ header, quoteSub src (advance src.loc (unlines ls ++ p)) (advance src.loc (unlines ls ++ (p ++ m))) =
      .ok (header ++ contextOf ls (List.replicate (intDec (src.loc.line + ls.length + 1)).length ' ') ++
          intDec (src.loc.line + ls.length + 1) ++ c!" | " ++ (p ++ m ++ r) ++ c!"\n" ++
          List.replicate (intDec (src.loc.line + ls.length + 1)).length ' ' ++ c!" | " ++
          List.replicate ((if ls = [] then src.loc.col.toNat else 0) + p.length) ' ' ++
          List.replicate m.length '^' ++ c!"\n") := by
  have h1 : ∀ x ∈ ls, '\n' ∉ x ∧ CrEnd x := by
    intro x hx
    refine ⟨hls x hx, fun a b he => ?_⟩
    obtain ⟨l1, l2, rfl⟩ := List.append_of_mem hx
    obtain ⟨c, hc⟩ := hcr (unlines l1 ++ a) (b ++ '\n' :: unlines l2 ++ (p ++ m ++ r) ++ rest)
      (by rw [hsrc, unlines_append, unlines_cons, he]; simp [List.append_assoc])
    cases b with
    | nil => rfl
    | cons d b =>
      simp only [List.cons_append, List.cons.injEq] at hc
      exact absurd (by rw [he, hc.1]; simp) (hls x hx)
  have hpr : '\r' ∉ p := by
    intro hm'
    obtain ⟨a, b, rfl⟩ := List.append_of_mem hm'
    obtain ⟨c, hc⟩ := hcr (unlines ls ++ a) (b ++ m ++ r ++ rest) (by rw [hsrc]; simp [List.append_assoc])
    cases b with
    | nil =>
      obtain ⟨d, ds, rfl⟩ := List.exists_cons_of_ne_nil hm
      simp only [List.nil_append, List.cons_append, List.cons.injEq] at hc
      exact absurd (by rw [hc.1]; simp) hl
    | cons d b =>
      simp only [List.cons_append, List.cons.injEq] at hc
      exact absurd (by rw [hc.1]; simp) hl
  simp only [List.mem_append, not_or] at hl
  have hpn : '\n' ∉ p ∧ '\r' ∉ p := ⟨hl.1.1, hpr⟩
  have hpm : '\n' ∉ p ++ m ∧ '\r' ∉ p ++ m := by
    simp only [List.mem_append, not_or]
    exact ⟨hl.1, hpr, hmr⟩
  have a1 := advance_lines (l := src.loc) h1 hpn
  have a2 := advance_lines (l := src.loc) h1 hpm
  have hmpos : 0 < m.length := List.length_pos_iff.2 hm
  obtain ⟨hd, he⟩ := quoteSub_eq (src := src) (start := advance src.loc (unlines ls ++ p))
    (stop := advance src.loc (unlines ls ++ (p ++ m))) (advance_src _ _) (advance_src _ _) hset
  refine ⟨hd, ?_⟩
  rw [he]
  generalize hst : advance src.loc (unlines ls ++ p) = st at *
  generalize hsp : advance src.loc (unlines ls ++ (p ++ m)) = sp at *
  have l1 : st.line = src.loc.line + ls.length := by rw [a1]
  have l2 : sp.line = src.loc.line + ls.length := by rw [a2]
  have c1 : st.col = (if ls = [] then src.loc.col else 0) + p.length := by rw [a1]
  have c2 : sp.col = (if ls = [] then src.loc.col else 0) + (p ++ m).length := by rw [a2]
  have cpos : 0 ≤ (if ls = [] then src.loc.col else (0 : Int)) := by split <;> omega
  have hc0 : 0 ≤ st.col := by rw [c1]; omega
  have hdiff : sp.col - st.col = m.length := by
    rw [c1, c2, List.length_append]; omega
  have hq := quote_eq (src := src) (line := p ++ m ++ r) (start := st) (stop := sp) hsrc hls (by simp [hl]) hr
    (by simp [hm]) l1 (by intro e; rw [e] at hdiff; omega) hc0
  have hcolN : st.col.toNat = (if ls = [] then src.loc.col.toNat else 0) + p.length := by
    rw [c1]
    split <;> omega
  rw [hq, l1, l2, if_pos rfl, hdiff, hcolN]
  unfold stringFill
  rw [if_neg (by omega), Res.ok_bind, Int.toNat_natCast, Res.ok_bind]
  simp only [List.append_assoc]

end P4C
