import Verif.Spec.Names
import Verif.Proofs.Program2

/-
The variables of a constraint are the names written in it.
-/

namespace P4C

open Spec

theorem dotted_index {sep : Str} {ts : List Token} {n : Str} {a b : Loc} (h : Dotted sep ts n a b) :
    ts.length % 2 = 1 ∧ ∀ i t, ts[i]? = some t → (i % 2 = 0 → t.kind = .id) ∧ (i % 2 = 1 → t.kind = .dot) := by
  induction h with
  | @one t ht =>
    refine ⟨rfl, fun i t' h => ?_⟩
    cases i with
    | zero =>
      cases h
      exact ⟨fun _ => ht, fun h => by cases h⟩
    | succ i => simp at h
  | @snoc ts name a b d t _ hd ht ih =>
    refine ⟨by simp only [List.length_append, List.length_cons, List.length_nil]; omega, fun i t' h => ?_⟩
    rw [List.getElem?_append] at h
    split at h
    · exact ih.2 i t' h
    · rename_i hi
      obtain ⟨j, rfl⟩ : ∃ j, i = ts.length + j := ⟨i - ts.length, by omega⟩
      rw [show ts.length + j - ts.length = j by omega] at h
      match j with
      | 0 =>
        cases h
        exact ⟨fun h => by omega, fun _ => hd⟩
      | 1 =>
        cases h
        exact ⟨fun _ => ht, fun h => by omega⟩
      | j + 2 => simp at h

theorem dotted_kind {sep : Str} {ts : List Token} {n : Str} {a b : Loc} (h : Dotted sep ts n a b) {t : Token} (ht : t ∈ ts) :
    t.kind = .id ∨ t.kind = .dot := by
  obtain ⟨i, hi⟩ := List.mem_iff_getElem?.1 ht
  have := (dotted_index h).2 i t hi
  rcases Nat.mod_two_eq_zero_or_one i with h0 | h0
  · exact .inl (this.1 h0)
  · exact .inr (this.2 h0)

theorem dotted_ne_nil {sep : Str} {ts : List Token} {n : Str} {a b : Loc} (h : Dotted sep ts n a b) : ts ≠ [] := by
  rintro rfl
  have := (dotted_index h).1
  cases this

theorem dotted_det {sep : Str} {ts : List Token} {n n' : Str} {a b a' b' : Loc} (h : Dotted sep ts n a b)
    (h' : Dotted sep ts n' a' b') : n = n' := by
  induction h generalizing n' a' b' with
  | @one t =>
    generalize hu : [t] = us at h'
    cases h' with
    | one =>
      cases hu
      rfl
    | @snoc ts' =>
      have := congrArg List.length hu
      simp at this
  | @snoc ts name a b d t _ _ _ ih =>
    generalize hu : ts ++ [d, t] = us at h'
    cases h' with
    | one =>
      have := congrArg List.length hu
      simp at this
    | @snoc ts' name' _ _ d' t' h1 _ _ =>
      have hl := congrArg List.length hu
      simp only [List.length_append, List.length_cons, List.length_nil] at hl
      obtain ⟨rfl, h2⟩ := List.append_inj hu (by omega)
      cases h2
      rw [ih h1]

/-- A list around a separator that does not occur in the run. -/
theorem run_split {A B pre run post : List Token} {o : Token} (h : A ++ o :: B = pre ++ run ++ post) (hr : run ≠ [])
    (ho : o ∉ run) :
    (∃ post', A = pre ++ run ++ post' ∧ post = post' ++ o :: B) ∨ ∃ pre', B = pre' ++ run ++ post ∧ pre = A ++ o :: pre' := by
  rw [List.append_assoc] at h
  rcases List.append_eq_append_iff.1 h with ⟨c, rfl, h2⟩ | ⟨c, rfl, h2⟩
  · cases c with
    | nil =>
      rw [List.nil_append] at h2
      cases run with
      | nil => exact (hr rfl).elim
      | cons x run =>
        cases h2
        exact (ho List.mem_cons_self).elim
    | cons x c =>
      obtain ⟨rfl, h3⟩ := List.cons.inj h2
      exact .inr ⟨c, h3.trans (List.append_assoc ..).symm, rfl⟩
  · rcases List.append_eq_append_iff.1 h2 with ⟨d, rfl, h3⟩ | ⟨d, h3, h4⟩
    · exact .inl ⟨d, by rw [List.append_assoc], h3⟩
    · cases d with
      | nil =>
        rw [List.append_nil] at h3
        rw [List.nil_append] at h4
        subst h3
        exact .inl ⟨[], by simp, h4.symm⟩
      | cons x d =>
        cases h4
        exact (ho (h3 ▸ List.mem_append_right _ List.mem_cons_self)).elim

/-- What precedes and follows a variable. -/
def Apart (pre post : List Token) : Prop :=
  (∀ t, pre.getLast? = some t → t.kind ≠ .doubleColon ∧ t.kind ≠ .dot) ∧
    ∀ t, post.head? = some t → t.kind ≠ .dot ∧ t.kind ≠ .lpar

theorem apart_left {pre post post' : List Token} (h : Apart pre (post ++ post')) : Apart pre post :=
  ⟨h.1, fun t ht => h.2 t (by rw [List.head?_append, ht]; rfl)⟩

theorem apart_right {pre pre' post : List Token} (h : Apart (pre' ++ pre) post) : Apart pre post :=
  ⟨fun t ht => h.1 t (by rw [List.getLast?_append, ht]; rfl), h.2⟩

theorem run_whole {sep sep' : Str} {ts pre run post : List Token} {n n' : Str} {a b a' b' : Loc} (h : Dotted sep ts n a b)
    (hr : Dotted sep' run n' a' b') (hts : ts = pre ++ run ++ post) (hp : Apart pre post) : pre = [] ∧ post = [] := by
  have h1 := dotted_index h
  have h2 := dotted_index hr
  have hpre : pre = [] := by
    rcases List.eq_nil_or_concat pre with rfl | ⟨l, t, rfl⟩
    · rfl
    · exfalso
      have h3 : ts[l.length]? = some t := by rw [hts]; simp
      have h4 := h1.2 _ _ h3
      have h5 := hp.1 t (by simp)
      cases run with
      | nil => exact dotted_ne_nil hr rfl
      | cons x run =>
        have h6 : ts[l.length + 1]? = some x := by rw [hts]; simp
        have h7 := h1.2 _ _ h6
        have h8 := (h2.2 0 x rfl).1 rfl
        rcases Nat.mod_two_eq_zero_or_one l.length with h9 | h9
        · rw [h7.2 (by omega)] at h8
          cases h8
        · exact h5.2 (h4.2 h9)
  subst hpre
  refine ⟨rfl, ?_⟩
  cases post with
  | nil => rfl
  | cons x post =>
    exfalso
    have h3 : ts[run.length]? = some x := by rw [hts]; simp
    exact (hp.2 x rfl).1 ((h1.2 _ _ h3).2 h2.1)

theorem run_single {t : Token} {sep : Str} {pre run post : List Token} {n : Str} {a b : Loc} (hr : Dotted sep run n a b)
    (h : [t] = pre ++ run ++ post) : pre = [] ∧ run = [t] ∧ post = [] := by
  have := dotted_ne_nil hr
  cases run with
  | nil => exact (this rfl).elim
  | cons x run =>
    cases pre with
    | nil =>
      obtain ⟨rfl, h'⟩ := List.cons.inj h
      have := List.append_eq_nil_iff.1 h'.symm
      exact ⟨rfl, by rw [this.1], this.2⟩
    | cons y pre => simp at h

theorem g_occ {pton : Str → Option Bytes} {k : ConstraintKind} {m : Nat} {ts : List Token} {e : Expr} (h : G pton k m ts e)
    {sep : Str} (hsep : k = .table → sep = c!".") (hsep' : k = .action → sep = []) {pre run post : List Token} {n : Str}
    {a b : Loc} (hr : Dotted sep run n a b) (hts : ts = pre ++ run ++ post) (hp : Apart pre post) : Mentions e n := by
  have hne := dotted_ne_nil hr
  have hno : ∀ {t : Token}, t.kind ≠ .id → t.kind ≠ .dot → t ∉ run := by
    intro t h1 h2 h3
    rcases dotted_kind hr h3 with h | h
    · exact h1 h
    · exact h2 h
  induction h generalizing pre post with
  | true_ ht | false_ ht =>
    obtain ⟨_, rfl, _⟩ := run_single hr hts
    exact (hno (by rw [ht]; decide) (by rw [ht]; decide) List.mem_cons_self).elim
  | @numeral t _ _ _ hb =>
    obtain ⟨_, rfl, _⟩ := run_single hr hts
    refine (hno (t := t) ?_ ?_ List.mem_cons_self).elim
    all_goals
      intro ht
      rw [ht] at hb
      cases hb
  | @address t l a r _ _ ht hl ha hr' =>
    rcases run_split (A := [t]) (o := l) (B := [a, r]) hts hne (hno (by rw [hl]; decide) (by rw [hl]; decide)) with
      ⟨post', h1, rfl⟩ | ⟨pre', h1, rfl⟩
    · obtain ⟨_, _, rfl⟩ := run_single hr h1
      exact ((hp.2 l rfl).2 hl).elim
    · cases run with
      | nil => exact (hne rfl).elim
      | cons x run =>
        have hx : x ∈ [a, r] := by rw [h1]; simp
        simp only [List.mem_cons, List.not_mem_nil, or_false] at hx
        rcases hx with rfl | rfl
        · exact (hno (by rw [ha]; decide) (by rw [ha]; decide) List.mem_cons_self).elim
        · exact (hno (by rw [hr']; decide) (by rw [hr']; decide) List.mem_cons_self).elim
  | key hk hd =>
    obtain ⟨rfl, rfl⟩ := run_whole hd hr hts hp
    simp only [List.nil_append, List.append_nil] at hts
    subst hts
    rw [hsep hk] at hr
    exact dotted_det hr hd
  | param hk hd =>
    obtain ⟨rfl, rfl⟩ := run_whole hd hr hts hp
    simp only [List.nil_append, List.append_nil] at hts
    subst hts
    rw [hsep' hk] at hr
    exact dotted_det hr hd
  | @attr d t hd ht =>
    rcases run_split (A := []) (o := d) (B := [t]) hts hne (hno (by rw [hd]; decide) (by rw [hd]; decide)) with
      ⟨post', h1, rfl⟩ | ⟨pre', h1, rfl⟩
    · simp only [List.append_assoc, List.nil_eq, List.append_eq_nil_iff] at h1
      exact (hne h1.2.1).elim
    · obtain ⟨rfl, _, _⟩ := run_single hr h1
      exact ((hp.1 d rfl).1 hd).elim
  | @paren l r ts e hl _ hr' ih =>
    rcases run_split (A := []) (o := l) (B := ts ++ [r]) hts hne (hno (by rw [hl]; decide) (by rw [hl]; decide)) with
      ⟨post', h1, rfl⟩ | ⟨pre', h1, rfl⟩
    · simp only [List.append_assoc, List.nil_eq, List.append_eq_nil_iff] at h1
      exact (hne h1.2.1).elim
    · rcases run_split (o := r) (B := []) h1 hne (hno (by rw [hr']; decide) (by rw [hr']; decide)) with
        ⟨post', h2, rfl⟩ | ⟨pre'', h2, rfl⟩
      · exact ih h2 (apart_right (pre' := [l]) (apart_left hp))
      · simp only [List.append_assoc, List.nil_eq, List.append_eq_nil_iff] at h2
        exact (hne h2.2.1).elim
  | up _ _ ih => exact ih hts hp
  | @field ts e d t _ hd ht ih =>
    rcases run_split (o := d) (B := [t]) hts hne (hno (by rw [hd]; decide) (by rw [hd]; decide)) with
      ⟨post', h1, rfl⟩ | ⟨pre', h1, rfl⟩
    · exact ih h1 (apart_left hp)
    · obtain ⟨rfl, _, _⟩ := run_single hr h1
      exact ((hp.1 d (by simp)).1 hd).elim
  | @not t ts e ht _ ih | @neg t ts e ht _ ih =>
    rcases run_split (A := []) (o := t) (B := ts) hts hne (hno (by rw [ht]; decide) (by rw [ht]; decide)) with
      ⟨post', h1, rfl⟩ | ⟨pre', h1, rfl⟩
    · simp only [List.append_assoc, List.nil_eq, List.append_eq_nil_iff] at h1
      exact (hne h1.2.1).elim
    · exact ih h1 (apart_right (pre' := [t]) hp)
  | @bin o op _ _ _ ts us e f hi _ _ ih1 ih2 =>
    have ho : o.kind ≠ .id ∧ o.kind ≠ .dot := by
      generalize o.kind = k at hi
      cases hi <;> decide
    rcases run_split (o := o) hts hne (hno ho.1 ho.2) with ⟨post', h1, rfl⟩ | ⟨pre', h1, rfl⟩
    · exact .inl (ih1 h1 (apart_left hp))
    · exact .inr (ih2 h1 (apart_right (pre' := ts ++ [o]) (by simpa using hp)))
  | @trailing ts o e _ ho ih =>
    rcases run_split (o := o) (B := []) hts hne (hno (by rw [ho]; decide) (by rw [ho]; decide)) with
      ⟨post', h1, rfl⟩ | ⟨pre', h1, rfl⟩
    · exact ih h1 (apart_left hp)
    · simp only [List.append_assoc, List.nil_eq, List.append_eq_nil_iff] at h1
      exact (hne h1.2.1).elim

theorem lexed_end {l : Loc} {s : Str} {ts : List Token} (h : Lexed l s ts) {A B : List Token} {t : Token}
    (hts : ts = A ++ t :: B) (ht : t.kind = .endOfInput) : B = [] := by
  induction h generalizing A with
  | eof | bad =>
    cases A with
    | nil => exact (List.cons.inj hts).2.symm
    | cons a A =>
      have := congrArg List.length hts
      simp at this
  | blank _ _ ih | crlf _ ih | cr _ _ ih | lf _ ih | line _ _ _ _ ih | block _ _ _ ih | openBlock _ _ _ _ ih => exact ih hts
  | tok hs _ _ ih =>
    cases A with
    | nil =>
      obtain ⟨rfl, _⟩ := List.cons.inj hts
      cases ht
      cases hs with
      | keyword h =>
        exfalso
        revert h
        simp [keywords]
    | cons a A => exact ih (List.cons.inj hts).2

/-- The variables of an expression that has a type are declared. -/
theorem mentions_declared {Γ : Sig} {e : Expr} {s : SExpr} {t : Ty} {n : Str} (ha : abs e = some s) (ht : HasTy Γ s t)
    (hm : Mentions e n) : (∃ t, Γ.key n = some t) ∨ ∃ t, Γ.param n = some t := by
  induction e generalizing s t with
  | key i m =>
    cases ha
    cases hm
    cases ht with
    | key h => exact .inl ⟨_, h⟩
  | actionParam i m =>
    cases ha
    cases hm
    cases ht with
    | param h => exact .inr ⟨_, h⟩
  | boolNeg i e ih =>
    obtain ⟨s', h1, rfl⟩ := Option.map_eq_some_iff.1 ha
    cases ht with
    | not h => exact ih h1 h hm
  | arithNeg i e ih =>
    obtain ⟨s', h1, rfl⟩ := Option.map_eq_some_iff.1 ha
    cases ht with
    | neg h => exact ih h1 h hm
  | field i e f ih =>
    obtain ⟨s', h1, rfl⟩ := Option.map_eq_some_iff.1 ha
    cases ht with
    | field h => exact ih h1 h hm
  | bin i op l r ih1 ih2 =>
    obtain ⟨sl, h1, h2⟩ := Option.bind_eq_some_iff.1 ha
    obtain ⟨sr, h3, h4⟩ := Option.bind_eq_some_iff.1 h2
    cases op <;> cases h4 <;> cases ht <;> rename_i hl hr <;> rcases hm with hm | hm
    all_goals first | exact ih1 h1 hl hm | exact ih2 h3 hr hm
  | typeCast i e => cases ha
  | _ => exact hm.elim

theorem constraint_mentions {pton : Str → Option Bytes} {k : ConstraintKind} {l : Loc} {s : Str} {ts : List Token} {e : Expr}
    (hc : Constraint pton k ts e) (hl : Lexed l s ts) {sep : Str} (hsep : k = .table → sep = c!".")
    (hsep' : k = .action → sep = []) {pre run post : List Token} {n : Str} {a b : Loc} (hr : Dotted sep run n a b)
    (hts : ts = pre ++ run ++ post) (hp : Apart pre post) : Mentions e n := by
  obtain ⟨A, B, rfl, hg, hB⟩ := hc
  rcases hB with rfl | ⟨t, B, rfl, ht⟩
  · rw [List.append_nil] at hts
    exact g_occ hg hsep hsep' hr hts hp
  · cases lexed_end hl rfl ht
    have hne := dotted_ne_nil hr
    rcases run_split hts hne (fun hm => by
      rcases dotted_kind hr hm with h | h <;> rw [h] at ht <;> cases ht) with ⟨post', h1, rfl⟩ | ⟨pre', h1, rfl⟩
    · exact g_occ hg hsep hsep' hr h1 (apart_left hp)
    · simp only [List.append_assoc, List.nil_eq, List.append_eq_nil_iff] at h1
      exact (hne h1.2.1).elim

theorem table_name {pton : Str → Option Bytes} {vs : List VarInfo} {p : Preamble}
    {r : Option (ConstraintSource × Expr × SExpr × Ty)} (h : ReadConstraint pton .table (keySig vs) p r)
    {src : ConstraintSource} (hsrc : Attached .table p (some src)) {ts : List Token} (hts : Lexed src.loc src.str ts)
    {n : Str} (hn : Writes ts n) : ∃ t, (keySig vs).key n = some t := by
  cases h with
  | none h => cases attached_unique hsrc h
  | some h1 h2 h3 h4 h5 =>
    cases attached_unique hsrc h1
    cases (lexed_tokenizeF hts _ (Nat.lt_succ_self _)).symm.trans (lexed_tokenizeF h2 _ (Nat.lt_succ_self _))
    obtain ⟨pre, run, post, a, b, h6, h7, h8⟩ := hn
    rcases mentions_declared h4 h5 (constraint_mentions h3 hts (fun _ => rfl) nofun h7 h6 h8) with h | ⟨t, h⟩
    · exact h
    · cases h

theorem action_name {pton : Str → Option Bytes} {vs : List VarInfo} {p : Preamble}
    {r : Option (ConstraintSource × Expr × SExpr × Ty)} (h : ReadConstraint pton .action (paramSig vs) p r)
    {src : ConstraintSource} (hsrc : Attached .action p (some src)) {ts : List Token} (hts : Lexed src.loc src.str ts)
    {n : Str} (hn : Writes ts n) (hdot : '.' ∉ n) : ∃ t, (paramSig vs).param n = some t := by
  cases h with
  | none h => cases attached_unique hsrc h
  | some h1 h2 h3 h4 h5 =>
    cases attached_unique hsrc h1
    cases (lexed_tokenizeF hts _ (Nat.lt_succ_self _)).symm.trans (lexed_tokenizeF h2 _ (Nat.lt_succ_self _))
    obtain ⟨pre, run, post, a, b, h6, h7, h8⟩ := hn
    have h9 : Dotted [] run n a b := by
      cases h7 with
      | one h => exact .one h
      | snoc => exact (hdot (by simp)).elim
    rcases mentions_declared h4 h5 (constraint_mentions h3 hts nofun (fun _ => rfl) h9 h6 h8) with ⟨t, h⟩ | h
    · cases h
    · exact h

theorem lexed_id {l : Loc} {s : Str} {ts : List Token} (h : Lexed l s ts) :
    ∀ t ∈ ts, t.kind = .id → ∃ x, Spells t.kind t.text x := by
  induction h with
  | eof => intro t ht hk; simp at ht; subst ht; cases hk
  | bad => intro t ht hk; simp at ht; subst ht; cases hk
  | tok hs _ _ ih =>
    intro t ht hk
    rcases List.mem_cons.1 ht with rfl | ht
    · exact ⟨_, hs⟩
    · exact ih t ht hk
  | _ => assumption

theorem id_no_dot {t : Token} {l : Str} (h : Spells t.kind t.text l) (hk : t.kind = .id) : '.' ∉ t.text := by
  have h' : ∀ {k : Kind} {x l : Str}, Spells k x l → k = .id → '.' ∉ x := by
    intro k x l h hk
    cases h with
    | keyword h => subst hk; simp [keywords] at h
    | @id c s h1 h2 =>
      have hd : ¬ (Letter '.' ∨ Digit '.') := by unfold Letter Digit; decide
      intro hm
      rcases List.mem_cons.1 hm with rfl | hm
      · exact hd (.inl h1)
      · exact hd (h2 _ hm)
    | _ => cases hk
  exact h' h hk

theorem filter_no_dot {s : Str} (h : '.' ∉ s) : s.filter (· ≠ '.') = s :=
  List.filter_eq_self.2 fun c hc => by simp only [ne_eq, decide_not, Bool.not_eq_eq_eq_not, Bool.not_true, decide_eq_false_iff_not]; rintro rfl; exact h hc

theorem dotted_undot {run : List Token} {n : Str} {a b : Loc} (h : Dotted c!"." run n a b)
    (hs : ∀ t ∈ run, t.kind = .id → '.' ∉ t.text) : Dotted [] run (n.filter (· ≠ '.')) a b := by
  induction h with
  | one h => rw [filter_no_dot (hs _ (by simp) h)]; exact .one h
  | snoc h1 h2 h3 ih =>
    have := Dotted.snoc (ih fun t ht => hs t (by simp [ht])) h2 h3
    rw [List.filter_append, List.filter_append, filter_no_dot (hs _ (by simp) h3)]
    exact this

theorem action_name_undot {pton : Str → Option Bytes} {vs : List VarInfo} {p : Preamble}
    {r : Option (ConstraintSource × Expr × SExpr × Ty)} (h : ReadConstraint pton .action (paramSig vs) p r)
    {src : ConstraintSource} (hsrc : Attached .action p (some src)) {ts : List Token} (hts : Lexed src.loc src.str ts)
    {n : Str} (hn : Writes ts n) : ∃ t, (paramSig vs).param (n.filter (· ≠ '.')) = some t := by
  cases h with
  | none h => cases attached_unique hsrc h
  | some h1 h2 h3 h4 h5 =>
    cases attached_unique hsrc h1
    cases (lexed_tokenizeF hts _ (Nat.lt_succ_self _)).symm.trans (lexed_tokenizeF h2 _ (Nat.lt_succ_self _))
    obtain ⟨pre, run, post, a, b, h6, h7, h8⟩ := hn
    have h9 : Dotted [] run (n.filter (· ≠ '.')) a b := dotted_undot h7 fun t ht hk => by
      obtain ⟨l, hl⟩ := lexed_id hts t (by rw [h6]; simp [ht]) hk
      exact id_no_dot hl hk
    rcases mentions_declared h4 h5 (constraint_mentions h3 hts nofun (fun _ => rfl) h9 h6 h8) with ⟨t, h⟩ | h
    · cases h
    · exact h

theorem keySig_mem {vs : List VarInfo} {n : Str} {t : Ty} (h : (keySig vs).key n = some t) : ∃ v ∈ vs, v.name = n := by
  obtain ⟨v, h1, _⟩ := Option.map_eq_some_iff.1 h
  exact ⟨v, List.mem_of_find?_eq_some h1, by simpa using List.find?_some h1⟩

theorem paramSig_mem {vs : List VarInfo} {n : Str} {t : Ty} (h : (paramSig vs).param n = some t) : ∃ v ∈ vs, v.name = n := by
  obtain ⟨v, h1, _⟩ := Option.map_eq_some_iff.1 h
  exact ⟨v, List.mem_of_find?_eq_some h1, by simpa using List.find?_some h1⟩

end P4C
