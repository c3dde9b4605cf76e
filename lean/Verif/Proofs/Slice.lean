import Verif.Spec.Slice
import Verif.Proofs.QuoteNode
/-!
# Parts of a text taken for themselves
-/
namespace P4C
open Spec

/-! ### Parentheses -/

theorem balanced_nil : Balanced [] := ⟨rfl, fun a b e => by
  cases a with
  | nil => exact Nat.le_refl _
  | cons => cases e⟩

theorem Spec.Balanced.append {a b : List Kind} (ha : Balanced a) (hb : Balanced b) : Balanced (a ++ b) := by
  refine ⟨by rw [List.count_append, List.count_append, ha.1, hb.1], fun x y e => ?_⟩
  rcases List.append_eq_append_iff.1 e with ⟨c, rfl, rfl⟩ | ⟨c, rfl, rfl⟩
  · have := hb.2 c y rfl
    rw [List.count_append, List.count_append, ha.1]; omega
  · exact ha.2 x c rfl

theorem Spec.Balanced.paren {a : List Kind} (ha : Balanced a) : Balanced (.lpar :: a ++ [.rpar]) := by
  refine ⟨by simp [List.count_append, ha.1], fun x y e => ?_⟩
  cases x with
  | nil => exact Nat.le_refl _
  | cons c x =>
    injection e with e1 e2
    subst e1
    rcases List.append_eq_append_iff.1 e2 with ⟨d, rfl, h⟩ | ⟨d, rfl, h⟩
    · cases d with
      | nil => simp [ha.1]
      | cons d ds =>
        injection h with h1 h2
        subst h1
        simp [List.count_append, ha.1, (List.nil_eq_append_iff.1 h2).1]
    · have := ha.2 x d rfl
      simp; omega

theorem balanced_one {k : Kind} (h1 : k ≠ .lpar) (h2 : k ≠ .rpar) : Balanced [k] := by
  have e1 : [k].count .lpar = 0 := List.count_eq_zero.2 (by simpa using Ne.symm h1)
  have e2 : [k].count .rpar = 0 := List.count_eq_zero.2 (by simpa using Ne.symm h2)
  refine ⟨by rw [e1, e2], fun a b e => ?_⟩
  have : a.count .rpar ≤ [k].count .rpar := by rw [e, List.count_append]; omega
  omega

theorem Spec.Balanced.cons {k : Kind} {a : List Kind} (h1 : k ≠ .lpar) (h2 : k ≠ .rpar) (ha : Balanced a) :
    Balanced (k :: a) := (balanced_one h1 h2).append ha

/-- The kindsOf of tokens. -/
def kindsOf (ts : List Token) : List Kind := ts.map (·.kind)

theorem kindsOf_append (a b : List Token) : kindsOf (a ++ b) = kindsOf a ++ kindsOf b := List.map_append ..

theorem dotted_balanced {sep : Str} {ts : List Token} {name : Str} {a b : Loc} (h : Dotted sep ts name a b) :
    Balanced (kindsOf ts) := by
  induction h with
  | one ht => simpa [kindsOf, ht] using balanced_one (k := .id) nofun nofun
  | snoc _ hd ht ih =>
    rw [kindsOf_append]
    refine ih.append ?_
    simpa [kindsOf, ht, hd] using (balanced_one (k := .id) nofun nofun).cons (k := .dot) nofun nofun

theorem infix_kind {kd : Kind} {op : BinOp} {n l r : Nat} (h : Infix kd op n l r) :
    kd ≠ .lpar ∧ kd ≠ .rpar ∧ 1 ≤ l ∧ 1 ≤ r ∧ 1 ≤ n := by
  cases h <;> exact ⟨nofun, nofun, by omega, by omega, by omega⟩

theorem G_balanced {pton : Str → Option Bytes} {k : ConstraintKind} {n : Nat} {ts : List Token} {e : Expr}
    (h : G pton k n ts e) : Balanced (kindsOf ts) := by
  induction h with
  | true_ ht => simpa [kindsOf, ht] using balanced_one (k := .true_) nofun nofun
  | false_ ht => simpa [kindsOf, ht] using balanced_one (k := .false_) nofun nofun
  | @numeral t b _ _ ht =>
    refine balanced_one ?_ ?_ <;> (intro e; dsimp only at e; rw [e] at ht; cases ht)
  | address h1 h2 h3 h4 =>
    simpa [kindsOf, h1, h2, h3, h4] using
      ((balanced_one (k := .string) nofun nofun).paren).cons (k := .id) nofun nofun
  | key _ hd => exact dotted_balanced hd
  | param _ hd => exact dotted_balanced hd
  | attr h1 h2 =>
    simpa [kindsOf, h1, h2] using (balanced_one (k := .id) nofun nofun).cons (k := .doubleColon) nofun nofun
  | paren h1 _ h2 ih => simpa [kindsOf, h1, h2] using ih.paren
  | up _ _ ih => exact ih
  | field _ h1 h2 ih =>
    rw [kindsOf_append]
    refine ih.append ?_
    simpa [kindsOf, h1, h2] using (balanced_one (k := .id) nofun nofun).cons (k := .doubleColon) nofun nofun
  | not h1 _ ih => simpa [kindsOf, h1] using ih.cons (k := .bang) nofun nofun
  | neg h1 _ ih => simpa [kindsOf, h1] using ih.cons (k := .minus) nofun nofun
  | bin hi _ _ ih1 ih2 =>
    rw [kindsOf_append]
    exact ih1.append (ih2.cons (infix_kind hi).1 (infix_kind hi).2.1)
  | trailing _ h1 ih =>
    rw [kindsOf_append]
    exact ih.append (by simpa [kindsOf, h1] using balanced_one (k := .semicolon) nofun nofun)

theorem dotted_first {sep : Str} {ts : List Token} {name : Str} {a b : Loc} (h : Dotted sep ts name a b) :
    ts.head?.map (·.start) = some a := by
  induction h with
  | one => rfl
  | @snoc ts _ _ _ _ _ _ _ _ ih =>
    cases ts with
    | nil => cases ih
    | cons => exact ih

theorem dotted_last {sep : Str} {ts : List Token} {name : Str} {a b : Loc} (h : Dotted sep ts name a b) :
    ts.getLast?.map (·.stop) = some b := by
  cases h with
  | one => rfl
  | snoc => simp

theorem open_nil {a c r : List Token} (ha : (kindsOf a).count .rpar = 0 ∧ (kindsOf a).count .lpar = a.length)
    (h : Balanced (kindsOf (a ++ c))) (h' : Balanced (kindsOf (c ++ r))) : a = [] := by
  have h1 := h.1
  have h2 := h'.2 (kindsOf c) (kindsOf r) (kindsOf_append ..)
  rw [kindsOf_append, List.count_append, List.count_append] at h1
  exact List.length_eq_zero_iff.1 (by omega)

theorem close_none {x c b : List Token} (hb : (kindsOf b).count .lpar = 0)
    (h : Balanced (kindsOf (c ++ b))) (hx : (kindsOf x).count .lpar = (kindsOf x).count .rpar)
    (h' : Balanced (kindsOf (x ++ c))) : (kindsOf b).count .rpar = 0 := by
  have h1 := h.1
  have h2 := h'.1
  rw [kindsOf_append, List.count_append, List.count_append] at h1 h2
  omega

theorem last_append {x c : List Token} {l : Loc} (h : c.getLast?.map (·.stop) = some l) :
    (x ++ c).getLast?.map (·.stop) = some l := by
  rw [List.getLast?_append]
  cases hc : c.getLast? with
  | none => rw [hc] at h; cases h
  | some t => rw [hc] at h; exact h

/-- The tokens `core` are the ones from the first to the last token of the expression `e`; `p` opening parentheses
come before and `q` closing ones after them. -/
structure CoreOf (pton : Str → Option Bytes) (k : ConstraintKind) (n : Nat) (a core b : List Token) (e : Expr) : Prop where
  first : core.head?.map (·.start) = some e.start
  last : core.getLast?.map (·.stop) = some e.stop
  before : (kindsOf a).count .rpar = 0 ∧ (kindsOf a).count .lpar = a.length
  after : (kindsOf b).count .lpar = 0 ∧ ((kindsOf b).count .rpar = 0 → n = 0 ∨ b = [])
  reads : Balanced (kindsOf core) → ∃ m, G pton k m core e

theorem G_core {pton : Str → Option Bytes} {k : ConstraintKind} {n : Nat} {ts : List Token} {e : Expr}
    (h : G pton k n ts e) : ∃ a core b, ts = a ++ core ++ b ∧ CoreOf pton k n a core b e := by
  have whole : ∀ {n : Nat} {ts : List Token} {e : Expr}, G pton k n ts e →
      ts.head?.map (·.start) = some e.start → ts.getLast?.map (·.stop) = some e.stop →
      ∃ a core b, ts = a ++ core ++ b ∧ CoreOf pton k n a core b e := fun h h1 h2 =>
    ⟨[], _, [], by simp, h1, h2, ⟨rfl, rfl⟩, ⟨rfl, fun _ => .inr rfl⟩, fun _ => ⟨_, h⟩⟩
  induction h with
  | true_ ht => exact whole (.true_ ht) rfl rfl
  | false_ ht => exact whole (.false_ ht) rfl rfl
  | numeral h1 h2 h3 => exact whole (.numeral h1 h2 h3) rfl rfl
  | address h1 h2 h3 h4 h5 h6 => exact whole (.address h1 h2 h3 h4 h5 h6) rfl rfl
  | key h1 hd => exact whole (.key h1 hd) (dotted_first hd) (dotted_last hd)
  | param h1 hd => exact whole (.param h1 hd) (dotted_first hd) (dotted_last hd)
  | attr h1 h2 => exact whole (.attr h1 h2) rfl rfl
  | @paren l r ts e h1 _ h2 ih =>
    obtain ⟨a, core, b, rfl, hc⟩ := ih
    refine ⟨l :: a, core, b ++ [r], by simp, hc.first, hc.last, ?_, ?_, hc.reads⟩
    · have := hc.before
      simp [kindsOf, h1] at this ⊢; omega
    · have := hc.after.1
      simp [kindsOf, h2] at this ⊢; exact this
  | up h1 h2 ih =>
    obtain ⟨a, core, b, rfl, hc⟩ := ih
    refine ⟨a, core, b, rfl, hc.first, hc.last, hc.before, ⟨hc.after.1, fun h => ?_⟩, hc.reads⟩
    rcases hc.after.2 h with h | h
    · cases h
    · exact .inr h
  | @field ts e d t hg h1 h2 ih =>
    obtain ⟨a, core, b, rfl, hc⟩ := ih
    have hb := G_balanced hg
    refine ⟨a, core ++ b ++ [d, t], [], by simp, ?_, (by simp [span, Expr.stop]; rfl), hc.before, ⟨rfl, fun _ => .inr rfl⟩, fun hbal => ?_⟩
    · have := hc.first
      cases core with
      | nil => cases this
      | cons => exact this
    · rw [List.append_assoc] at hb
      cases open_nil hc.before hb hbal
      exact ⟨7, by simpa using G.field hg h1 h2⟩
  | @not t ts e h1 hg ih =>
    obtain ⟨a, core, b, rfl, hc⟩ := ih
    have hb := G_balanced hg
    refine ⟨[], t :: a ++ core, b, by simp, rfl, ?_, ⟨rfl, rfl⟩, ⟨hc.after.1, fun h => ?_⟩, fun hbal => ?_⟩
    · exact last_append hc.last
    · exact .inr ((hc.after.2 h).resolve_left (by omega))
    · have := close_none (x := [t]) hc.after.1 hb (by simp [kindsOf, h1]) hbal
      cases (hc.after.2 this).resolve_left (by omega)
      exact ⟨6, by simpa using G.not h1 hg⟩
  | @neg t ts e h1 hg ih =>
    obtain ⟨a, core, b, rfl, hc⟩ := ih
    have hb := G_balanced hg
    refine ⟨[], t :: a ++ core, b, by simp, rfl, ?_, ⟨rfl, rfl⟩, ⟨hc.after.1, fun h => ?_⟩, fun hbal => ?_⟩
    · exact last_append hc.last
    · exact .inr ((hc.after.2 h).resolve_left (by omega))
    · have := close_none (x := [t]) hc.after.1 hb (by simp [kindsOf, h1]) hbal
      cases (hc.after.2 this).resolve_left (by omega)
      exact ⟨6, by simpa using G.neg h1 hg⟩
  | @bin o op n l r ts us e f hi hg1 hg2 ih1 ih2 =>
    obtain ⟨a, core, b, rfl, hc⟩ := ih1
    obtain ⟨a', core', b', rfl, hc'⟩ := ih2
    have hk := infix_kind hi
    have hb := G_balanced hg1
    have hb' := G_balanced hg2
    refine ⟨a, core ++ b ++ o :: a' ++ core', b', by simp, ?_, ?_, hc.before, ⟨hc'.after.1, fun h => ?_⟩, fun hbal => ?_⟩
    · have := hc.first
      cases core with
      | nil => cases this
      | cons => exact this
    · exact last_append hc'.last
    · exact .inr ((hc'.after.2 h).resolve_left (by omega))
    · have h1 : core ++ b ++ o :: a' ++ core' = core ++ b ++ (o :: a' ++ core') := by simp
      have h2 : core ++ b ++ o :: a' ++ core' = core ++ b ++ [o] ++ (a' ++ core') := by simp
      have h3 := hbal
      rw [h1] at h3
      rw [List.append_assoc] at hb
      cases open_nil hc.before hb h3
      rw [h2] at hbal
      have := close_none hc'.after.1 hb' (by
        rw [List.nil_append] at hb
        rw [kindsOf_append, List.count_append, List.count_append, hb.1]
        simp [kindsOf, hk.1, hk.2.1]) hbal
      cases (hc'.after.2 this).resolve_left (by omega)
      exact ⟨n, by simpa using G.bin hi hg1 hg2⟩
  | @trailing ts o e _ h1 ih =>
    obtain ⟨a, core, b, rfl, hc⟩ := ih
    refine ⟨a, core, b ++ [o], by simp, hc.first, hc.last, hc.before, ⟨?_, fun _ => .inl rfl⟩, hc.reads⟩
    have := hc.after.1
    simpa [kindsOf, h1] using this

theorem G_node {pton : Str → Option Bytes} {k : ConstraintKind} {n : Nat} {ts : List Token} {e x : Expr}
    (h : G pton k n ts e) (hx : NodeOf x e) : ∃ a us b m, ts = a ++ us ++ b ∧ G pton k m us x := by
  have here : ∀ {n : Nat} {ts : List Token} {e : Expr}, G pton k n ts e → ∃ a us b m, ts = a ++ us ++ b ∧ G pton k m us e :=
    fun h => ⟨[], _, [], _, by simp, h⟩
  induction h with
  | true_ ht => cases hx; exact here (.true_ ht)
  | false_ ht => cases hx; exact here (.false_ ht)
  | numeral h1 h2 h3 => cases hx; exact here (.numeral h1 h2 h3)
  | address h1 h2 h3 h4 h5 h6 => cases hx; exact here (.address h1 h2 h3 h4 h5 h6)
  | key h1 hd => cases hx; exact here (.key h1 hd)
  | param h1 hd => cases hx; exact here (.param h1 hd)
  | attr h1 h2 => cases hx; exact here (.attr h1 h2)
  | @paren l r ts e h1 _ h2 ih =>
    obtain ⟨a, us, b, m, rfl, h⟩ := ih hx
    exact ⟨l :: a, us, b ++ [r], m, by simp, h⟩
  | up h1 h2 ih => exact ih hx
  | @field ts e d t hg h1 h2 ih =>
    cases hx with
    | self => exact here (.field hg h1 h2)
    | field hx =>
      obtain ⟨a, us, b, m, rfl, h⟩ := ih hx
      exact ⟨a, us, b ++ [d, t], m, by simp, h⟩
  | @not t ts e h1 hg ih =>
    cases hx with
    | self => exact here (.not h1 hg)
    | boolNeg hx =>
      obtain ⟨a, us, b, m, rfl, h⟩ := ih hx
      exact ⟨t :: a, us, b, m, by simp, h⟩
  | @neg t ts e h1 hg ih =>
    cases hx with
    | self => exact here (.neg h1 hg)
    | arithNeg hx =>
      obtain ⟨a, us, b, m, rfl, h⟩ := ih hx
      exact ⟨t :: a, us, b, m, by simp, h⟩
  | @bin o op n l r ts us e f hi hg1 hg2 ih1 ih2 =>
    cases hx with
    | self => exact here (.bin hi hg1 hg2)
    | left hx =>
      obtain ⟨a, us, b, m, rfl, h⟩ := ih1 hx
      exact ⟨a, us, b ++ o :: _, m, by simp; rfl, h⟩
    | right hx =>
      obtain ⟨a, us, b, m, rfl, h⟩ := ih2 hx
      exact ⟨ts ++ o :: a, us, b, m, by simp, h⟩
  | @trailing ts o e _ h1 ih =>
    obtain ⟨a, us, b, m, rfl, h⟩ := ih hx
    exact ⟨a, us, b ++ [o], m, by simp, h⟩

/-! ### Reading a part of a text -/

theorem spells_ascii {k : Kind} {t l : Str} (h : Spells k t l) : ∃ c cs, l = c :: cs ∧ c.toNat < 0x80 := by
  cases h with
  | keyword h =>
    have : ∀ p ∈ keywords, p.2.head?.any (fun c => c.toNat < 0x80) = true := by decide
    have := this _ h
    cases t with
    | nil => cases this
    | cons c cs => exact ⟨c, cs, rfl, by simpa using this⟩
  | id hc =>
    refine ⟨_, _, rfl, ?_⟩
    rcases hc with rfl | ⟨_, h⟩ | ⟨_, h⟩
    · decide
    · exact Nat.lt_of_le_of_lt (show _ ≤ 122 from h) (by decide)
    · exact Nat.lt_of_le_of_lt (show _ ≤ 90 from h) (by decide)
  | decimal hs hd =>
    cases t with
    | nil => exact absurd rfl hs
    | cons c cs => exact ⟨c, cs, rfl, Nat.lt_of_le_of_lt (show _ ≤ 57 from (hd c (List.mem_cons_self ..)).2) (by decide)⟩
  | _ => exact ⟨_, _, rfl, by decide⟩

theorem noRune_lexed {l : Loc} {s : Str} {ts : List Token} (hs : NoRune s) (h : Lexed l s ts) :
    ∀ t ∈ ts, t.kind = .endOfInput ∨ t.kind = .unexpectedChar := by
  cases h with
  | eof => intro t ht; cases List.mem_singleton.1 ht; exact .inl rfl
  | bad => intro t ht; cases List.mem_singleton.1 ht; exact .inr rfl
  | blank hc => exact absurd rfl (hs [_] _ (.ascii (by rcases hc with rfl | rfl <;> decide)))
  | crlf | cr | lf | line => exact absurd rfl (hs [_] _ (.ascii (by decide)))
  | block => exact absurd rfl (hs ['/'] _ (.ascii (by decide)))
  | openBlock => exact absurd rfl (hs ['/'] _ (.ascii (by decide)))
  | tok hsp =>
    obtain ⟨c, cs, rfl, hc⟩ := spells_ascii hsp
    exact absurd rfl (hs [c] _ (.ascii hc))

theorem chosen_prefix {k : Kind} {l s r : Str} (h : Chosen (l ++ (s ++ r)) k l) : Chosen (l ++ s) k l := by
  have hp : l ++ s <+: l ++ (s ++ r) := ⟨r, by simp⟩
  exact ⟨fun h1 => h.isTrue (h1.trans hp), fun h1 => h.isFalse (h1.trans hp),
    fun h1 h2 k' t' l' h3 h4 => h.longest h1 h2 k' t' l' h3 (h4.trans hp)⟩

/-- In the text `pre ++ s`, which starts at `l`, the tokens `core` make up the part `m` of `s`. -/
structure CutOf (l : Loc) (pre s : Str) (lead : Bool) (core : List Token) (gap m post : Str) : Prop where
  text : s = gap ++ m ++ post
  first : core.head?.map (·.start) = some (advance l (pre ++ gap))
  last : core.getLast?.map (·.stop) = some (advance l (pre ++ gap ++ m))
  tokens : tokensOf m = core.map kindText ++ [(.endOfInput, [])]
  lead : lead = true → tokensOf (gap ++ m) = tokensOf m
  head : ∃ c cs, m = c :: cs ∧ c ≠ '\n' ∧ c ≠ '\r'
  foot : ∃ c cs, m = cs ++ [c] ∧ c ≠ '\n' ∧ c ≠ '\r'

theorem CutOf.skip {l : Loc} {pre w s : Str} {lead : Bool} {core : List Token}
    (hB : ∀ g, g ≠ [] → g <+: s → tokensOf (w ++ g) = tokensOf g)
    (h : ∃ gap m post, CutOf l (pre ++ w) s lead core gap m post) : ∃ gap m post, CutOf l pre (w ++ s) lead core gap m post := by
  obtain ⟨gap, m, post, h⟩ := h
  refine ⟨w ++ gap, m, post, by rw [h.text]; simp, ?_, ?_, h.tokens, fun hl => ?_, h.head, h.foot⟩
  · rw [h.first, List.append_assoc]
  · rw [h.last, List.append_assoc pre]
  · rw [List.append_assoc, hB (gap ++ m) ?_ ?_, h.lead hl]
    · obtain ⟨c, cs, e, _⟩ := h.head
      rw [e]; simp
    · rw [h.text]; exact List.prefix_append _ _

theorem lexed_part {l : Loc} {s : Str} {ts : List Token} (h : Lexed l s ts) :
    ∀ l0 pre A core B, ts = A ++ core ++ B → core ≠ [] →
      (∀ t ∈ core, t.kind ≠ .endOfInput ∧ t.kind ≠ .unexpectedChar) → l = advance l0 pre → Bd pre s →
      (∀ t ∈ ts, t.kind = .string → ∀ c ∈ t.text, c ≠ '\r' ∧ c ≠ '\n') →
      ∃ gap m post, CutOf l0 pre s A.isEmpty core gap m post := by
  have single : ∀ {t : Token} {A core B : List Token}, [t] = A ++ core ++ B → core ≠ [] →
      (∀ t ∈ core, t.kind ≠ .endOfInput ∧ t.kind ≠ .unexpectedChar) → t.kind = .endOfInput ∨ t.kind = .unexpectedChar → False := by
    intro t A core B e hne hk ht
    cases core with
    | nil => exact hne rfl
    | cons u us =>
      have : u ∈ [t] := by rw [e]; simp
      rw [List.mem_singleton.1 this] at hk
      have := hk t (List.mem_cons_self ..)
      rcases ht with ht | ht
      · exact this.1 ht
      · exact this.2 ht
  induction h with
  | eof => exact fun _ _ _ _ _ e hne hk _ _ _ => (single e hne hk (.inl rfl)).elim
  | bad => exact fun _ _ _ _ _ e hne hk _ _ _ => (single e hne hk (.inr rfl)).elim
  | @blank l c s ts hc _ ih =>
    intro l0 pre A core B e hne hk hl hb hn
    refine CutOf.skip (w := [c]) (fun g _ _ => tokensOf_blank g hc) (ih l0 _ A core B e hne hk ?_ ?_ hn)
    · have hc' : c ≠ '\r' ∧ c ≠ '\n' := by rcases hc with rfl | rfl <;> decide
      rw [advance_append (.inr (by rintro t e; cases e; exact hc'.2 rfl)), advance_plain (by simpa using hc'), hl]
      rfl
    · exact .inl (not_ends_cr (by rcases hc with rfl | rfl <;> decide))
  | @crlf l s ts _ ih =>
    intro l0 pre A core B e hne hk hl hb hn
    refine CutOf.skip (w := c!"\r\n") (fun g _ _ => tokensOf_crlf g) (ih l0 _ A core B e hne hk ?_ ?_ hn)
    · rw [advance_append (.inr (by rintro t ⟨⟩)), hl]; simp [advance]
    · refine .inl ?_
      rintro ⟨x, e⟩
      have : pre ++ c!"\r" ++ ['\n'] = x ++ ['\r'] := by simpa using e
      exact not_ends_cr (by decide) ⟨x, this⟩
  | @cr l s ts hs _ ih =>
    intro l0 pre A core B e hne hk hl hb hn
    refine CutOf.skip (w := c!"\r") (fun g _ _ => tokensOf_cr g) (ih l0 _ A core B e hne hk ?_ (.inr hs) hn)
    rw [advance_append (.inr (by rintro t ⟨⟩)), hl]; simp [advance]
  | @lf l s ts _ ih =>
    intro l0 pre A core B e hne hk hl hb hn
    refine CutOf.skip (w := c!"\n") (fun g _ _ => tokensOf_lf g) (ih l0 _ A core B e hne hk ?_ ?_ hn)
    · rw [advance_append (.inl ?_), hl]
      · simp [advance]
      · rcases hb with hb | hb
        · exact hb
        · exact absurd rfl (hb s)
    · exact .inl (not_ends_cr (by decide))
  | @line l a s ts h1 h2 h3 hrest ih =>
    intro l0 pre A core B e hne hk hl hb hn
    have pl : ∀ c ∈ '/' :: '/' :: a, c ≠ '\r' ∧ c ≠ '\n' := by
      intro c hc
      simp only [List.mem_cons] at hc
      rcases hc with rfl | rfl | hc
      · decide
      · decide
      · exact h2 c hc
    have := CutOf.skip (l := l0) (pre := pre) (w := '/' :: '/' :: a) (s := s) (lead := A.isEmpty) (core := core) ?_
      (ih l0 _ A core B e hne hk ?_ ?_ hn)
    · simpa using this
    · intro g hg hp
      rcases h3 with h3 | ⟨t, h3⟩
      · exfalso
        cases core with
        | nil => exact hne rfl
        | cons u us =>
          have h4 := hk u (List.mem_cons_self ..)
          rcases noRune_lexed h3 hrest u (by rw [e]; simp) with h5 | h5
          · exact h4.1 h5
          · exact h4.2 h5
      · obtain ⟨ts', h'⟩ := lexed_exists (shift {} (a.length + 2)) g
        have h4 : ∃ t, g = '\r' :: t ∨ g = '\n' :: t := by
          cases g with
          | nil => exact absurd rfl hg
          | cons x xs =>
            obtain ⟨u, e⟩ := hp
            rcases h3 with rfl | rfl <;> cases e
            · exact ⟨xs, .inl rfl⟩
            · exact ⟨xs, .inr rfl⟩
        have h5 := Lexed.line (l := {}) h1 h2 (.inr h4) h'
        have e1 : '/' :: '/' :: a ++ g = '/' :: '/' :: (a ++ g) := rfl
        rw [e1, tokensOf_eq h5, tokensOf_eq h']
    · rw [advance_append (.inr (by rintro t ⟨⟩)), advance_plain pl, hl]; rfl
    · exact .inl (ends_of_mem (by simp) fun c hc => (pl c hc).1)
  | @block l a s ts h1 h2 _ ih =>
    intro l0 pre A core B e hne hk hl hb hn
    refine CutOf.skip (w := c!"/*" ++ a ++ c!"*/") (fun g _ _ => tokensOf_sep (.block h1 h2) g)
      (ih l0 _ A core B e hne hk ?_ ?_ hn)
    · rw [advance_append (a := pre) (.inr (by rintro t ⟨⟩)), hl]
    · refine .inl ?_
      have : pre ++ (c!"/*" ++ a ++ c!"*/") = pre ++ (c!"/*" ++ a ++ c!"*") ++ ['/'] := by simp
      rw [this]; exact not_ends_cr (by decide)
  | @openBlock l a s ts h1 h2 h3 hrest ih =>
    intro l0 pre A core B e hne hk hl hb hn
    exfalso
    cases core with
    | nil => exact hne rfl
    | cons u us =>
      have h4 := hk u (List.mem_cons_self ..)
      rcases noRune_lexed h3 hrest u (by rw [e]; simp) with h5 | h5
      · exact h4.1 h5
      · exact h4.2 h5
  | @tok l kd text lexeme s ts h1 h2 _ ih =>
    intro l0 pre A core B e hne hk hl hb hn
    have hpl := spells_plain h1 (hn _ (List.mem_cons_self ..))
    have pl : ∀ c ∈ lexeme, c ≠ '\r' ∧ c ≠ '\n' := fun c hc =>
      ⟨fun e => hpl.2 (e ▸ hc), fun e => hpl.1 (e ▸ hc)⟩
    have hne' : lexeme ≠ [] := by
      have := spells_length h1
      rintro rfl; cases this
    have hstart : ∀ t, lexeme ++ s ≠ '\n' :: t := by
      intro t e
      cases lexeme with
      | nil => exact hne' rfl
      | cons c cs => injection e with e _; exact (pl c (List.mem_cons_self ..)).2 e
    have hadv : shift l lexeme.length = advance l0 (pre ++ lexeme) := by
      rw [advance_append (.inr fun t e => ?_), advance_plain pl, hl]
      cases lexeme with
      | nil => exact hne' rfl
      | cons c cs => injection e with e _; exact (pl c (List.mem_cons_self ..)).2 e
    have hbd : Bd (pre ++ lexeme) s := .inl (ends_of_mem hne' fun c hc => (pl c hc).1)
    have hn' : ∀ t ∈ ts, t.kind = .string → ∀ c ∈ t.text, c ≠ '\r' ∧ c ≠ '\n' :=
      fun t ht => hn t (List.mem_cons_of_mem _ ht)
    cases A with
    | cons a A =>
      injection e with e1 e2
      obtain ⟨gap, m, post, h⟩ := ih l0 _ A core B e2 hne hk hadv hbd hn'
      exact ⟨lexeme ++ gap, m, post, by rw [h.text]; simp, by rw [h.first, List.append_assoc],
        by rw [h.last]; simp, h.tokens, nofun, h.head, h.foot⟩
    | nil =>
      cases core with
      | nil => exact absurd rfl hne
      | cons u us =>
        injection e with e1 e2
        subst e1
        have hd : ∃ c cs, lexeme = c :: cs ∧ c ≠ '\n' ∧ c ≠ '\r' := by
          cases lexeme with
          | nil => exact absurd rfl hne'
          | cons c cs => exact ⟨c, cs, rfl, (pl c (List.mem_cons_self ..)).2, (pl c (List.mem_cons_self ..)).1⟩
        have hf : ∃ c cs, lexeme = cs ++ [c] ∧ c ≠ '\n' ∧ c ≠ '\r' := by
          refine ⟨lexeme.getLast hne', lexeme.dropLast, (List.dropLast_concat_getLast hne').symm, ?_⟩
          exact (pl _ (List.getLast_mem hne')).symm
        cases us with
        | nil =>
          refine ⟨[], lexeme, s, rfl, by rw [List.append_nil, ← hl]; rfl, by rw [List.append_nil, ← hadv]; rfl, ?_,
            fun _ => rfl, hd, hf⟩
          have := tokensOf_tok (s := []) h1 (chosen_prefix (s := []) h2)
          rw [List.append_nil] at this
          rw [this]
          exact congrArg _ (tokensOf_eq (l := {}) .eof)
        | cons v vs =>
          obtain ⟨gap, m, post, h⟩ := ih l0 _ [] (v :: vs) B e2 nofun (fun t ht => hk t (List.mem_cons_of_mem _ ht)) hadv hbd hn'
          refine ⟨[], lexeme ++ (gap ++ m), post, by rw [h.text]; simp, by rw [List.append_nil, ← hl]; rfl, ?_, ?_,
            fun _ => rfl, ?_, ?_⟩
          · have := h.last
            simpa using this
          · have h3 : lexeme ++ s = lexeme ++ ((gap ++ m) ++ post) := by rw [h.text]
            rw [h3] at h2
            rw [tokensOf_tok h1 (chosen_prefix h2), h.lead rfl, h.tokens]
            rfl
          · obtain ⟨c, cs, e, h4⟩ := hd
            exact ⟨c, cs ++ (gap ++ m), by rw [e]; rfl, h4⟩
          · obtain ⟨c, cs, e, h4⟩ := h.foot
            exact ⟨c, lexeme ++ (gap ++ cs), by rw [e]; simp, h4⟩

theorem advance_lt (l : Loc) {d : Str} (h : d ≠ []) : LocLt l (advance l d) := by
  cases d with
  | nil => exact absurd rfl h
  | cons c cs =>
    simp only [advance]
    split
    · rename_i hc
      cases cs with
      | nil => simp at hc
      | cons b bs =>
        have : b = '\n' := by simpa using hc.2
        subst this
        refine LocLt.trans_le ?_ (advance_le _ bs)
        simp [nextLine, LocLt]; omega
    · split
      · exact LocLt.trans_le (by simp [nextLine, LocLt]; omega) (advance_le _ cs)
      · exact LocLt.trans_le (by simp [shift, LocLt]; omega) (advance_le _ cs)

theorem locLt_irrefl {l : Loc} : ¬ LocLt l l := by
  rintro (h | ⟨_, h⟩)
  · omega
  · omega

/-- Positions with the same location. -/
theorem advance_inj {l : Loc} {p d : Str} (h : advance l p = advance l (p ++ d)) :
    d = [] ∨ (∃ x, p = x ++ ['\r']) ∧ d = ['\n'] := by
  by_cases hd : d = []
  · exact .inl hd
  · right
    by_cases hb : ¬ (∃ x, p = x ++ ['\r']) ∨ ∀ t, d ≠ '\n' :: t
    · rw [advance_append hb] at h
      have := advance_lt (advance l p) hd
      rw [← h] at this
      exact absurd this locLt_irrefl
    · have h1 : ∃ x, p = x ++ ['\r'] := Classical.byContradiction fun h' => hb (.inl h')
      have h2 : ∃ t, d = '\n' :: t := Classical.byContradiction fun h' => hb (.inr fun t e => h' ⟨t, e⟩)
      refine ⟨h1, ?_⟩
      obtain ⟨x, rfl⟩ := h1
      obtain ⟨t, rfl⟩ := h2
      by_cases ht : t = []
      · rw [ht]
      · have e1 : x ++ ['\r'] ++ '\n' :: t = (x ++ ['\r', '\n']) ++ t := by simp
        have e2 : advance l (x ++ ['\r', '\n']) = advance l (x ++ ['\r']) := by
          rw [advance_append (.inr (by rintro t ⟨⟩)), advance_append (.inr (by rintro t ⟨⟩))]
          simp [advance]
        have e3 : ¬ ∃ y, x ++ ['\r', '\n'] = y ++ ['\r'] := by
          rintro ⟨y, e⟩
          have : (x ++ ['\r']) ++ ['\n'] = y ++ ['\r'] := by simpa using e
          exact not_ends_cr (by decide) ⟨y, this⟩
        rw [e1, advance_append (.inl e3), e2] at h
        have := advance_lt (advance l (x ++ ['\r'])) ht
        rw [← h] at this
        exact absurd this locLt_irrefl

/-- The part of a text between two locations is unique up to a line break at its start. -/
theorem between_unique {src : ConstraintSource} {m p q : Str} (hs : src.str = p ++ m ++ q)
    (hh : ∃ c cs, m = c :: cs ∧ c ≠ '\n' ∧ c ≠ '\r') (hf : ∃ c cs, m = cs ++ [c] ∧ c ≠ '\n' ∧ c ≠ '\r') {m' : Str}
    (h : Between src (advance src.loc p) (advance src.loc (p ++ m)) m') : m' = m ∨ m' = '\n' :: m := by
  obtain ⟨p', q', hs', h1, h2⟩ := h
  have hstart : p = p' ∨ p = p' ++ ['\n'] := by
    have e : p ++ (m ++ q) = p' ++ (m' ++ q') := by rw [← List.append_assoc, ← hs, hs', List.append_assoc]
    rcases List.append_eq_append_iff.1 e with ⟨c, e1, e2⟩ | ⟨c, e1, e2⟩
    · subst e1
      rcases advance_inj h1 with rfl | ⟨_, rfl⟩
      · exact .inl (by simp)
      · obtain ⟨c, cs, rfl, hc, _⟩ := hh
        injection e2 with e3 _
        exact absurd e3 hc
    · subst e1
      rcases advance_inj h1.symm with rfl | ⟨_, rfl⟩
      · exact .inl (by simp)
      · exact .inr rfl
  have hend : p ++ m = p' ++ m' := by
    have e : (p ++ m) ++ q = (p' ++ m') ++ q' := by rw [← hs, hs']
    rcases List.append_eq_append_iff.1 e with ⟨c, e1, e2⟩ | ⟨c, e1, e2⟩
    · rw [e1] at h2
      rcases advance_inj h2 with rfl | ⟨⟨x, e3⟩, _⟩
      · simpa using e1.symm
      · obtain ⟨c, cs, rfl, _, hc⟩ := hf
        rw [← List.append_assoc] at e3
        exact absurd ⟨x, e3⟩ (not_ends_cr hc)
    · rw [e1] at h2
      rcases advance_inj h2.symm with rfl | ⟨_, rfl⟩
      · simpa using e1
      · obtain ⟨d, cs, rfl, hc, _⟩ := hf
        have : (p ++ cs) ++ [d] = p' ++ m' ++ ['\n'] := by simpa using e1
        have := (List.append_inj' this rfl).2
        cases this
        exact absurd rfl hc
  rcases hstart with rfl | rfl
  · exact .inl (List.append_cancel_left hend).symm
  · right
    rw [List.append_assoc] at hend
    exact (List.append_cancel_left hend).symm

theorem G_zero {pton : Str → Option Bytes} {k : ConstraintKind} {n : Nat} {ts : List Token} {e : Expr}
    (h : G pton k n ts e) : G pton k 0 ts e := by
  have h8 : n ≤ 8 := by
    cases h with
    | up h _ => omega
    | @bin o _ _ _ _ _ _ _ _ hi => generalize o.kind = kd at hi; cases hi <;> omega
    | _ => omega
  induction n with
  | zero => exact h
  | succ n ih => exact ih (.up (by omega) h) (by omega)

theorem node_part {sys : Sys} {k : ConstraintKind} {src : ConstraintSource} {e x : Expr}
    (h : parseConstraint sys k src = .ok e) (ho : OneLine src) (hx : NodeOf x e) :
    ∃ core, (∀ t ∈ core, t ∈ tokenize src) ∧ (Balanced (kindsOf core) → ∃ n, G sys.inetPton6 k n core x) ∧
      ∃ m, Between src x.start x.stop m ∧ m ≠ [] ∧
      ∀ m, Between src x.start x.stop m → tokensOf m = core.map kindText ++ [(.endOfInput, [])] := by
  obtain ⟨toks, last, h1, h2, hg⟩ := parseConstraint_split.1 h
  obtain ⟨a, us, b, n, rfl, hg'⟩ := G_node hg hx
  obtain ⟨a', core, b', rfl, hc⟩ := G_core hg'
  have hmem : ∀ t ∈ core, t ∈ tokenize src := fun t ht => by rw [h1]; simp [ht]
  have hne : core ≠ [] := by
    rintro rfl
    have := hc.first
    cases this
  have hproper : ∀ t ∈ core, t.kind ≠ .endOfInput ∧ t.kind ≠ .unexpectedChar := by
    obtain ⟨toks', last', _, e1, e2, _⟩ := lexed_covers (tokenize_lexed src)
    rw [h1] at e1
    have e3 := (List.append_inj' e1 rfl).1
    intro t ht
    refine e2 t ?_
    rw [← e3]; simp [ht]
  have hl := lexed_part (tokenize_lexed src) src.loc [] (a ++ a') core (b' ++ b ++ [last]) (by rw [h1]; simp) hne hproper rfl
    (.inl (by rintro ⟨x, e⟩; cases x <;> cases e)) ho
  obtain ⟨p, m, q, hp⟩ := hl
  have hstart : x.start = advance src.loc p := by
    have := hp.first
    rw [hc.first] at this
    exact Option.some.inj this
  have hstop : x.stop = advance src.loc (p ++ m) := by
    have := hp.last
    rw [hc.last] at this
    exact Option.some.inj this
  refine ⟨core, hmem, hc.reads, m, ⟨p, q, hp.text, hstart, hstop⟩, ?_, fun m' hm' => ?_⟩
  · obtain ⟨c, cs, e, _⟩ := hp.head
    rw [e]; simp
  · rw [hstart, hstop] at hm'
    rcases between_unique hp.text hp.head hp.foot hm' with rfl | rfl
    · exact hp.tokens
    · rw [tokensOf_lf]; exact hp.tokens

/-- A part of a constraint, read as a constraint, is that part. -/
theorem node_reads {sys : Sys} {k : ConstraintKind} {src : ConstraintSource} {e x : Expr}
    (h : parseConstraint sys k src = .ok e) (ho : OneLine src) (hx : NodeOf x e) {m : Str}
    (hm : Between src x.start x.stop m) (loc : Loc) :
    (Balanced ((tokenize ⟨m, loc⟩).map (·.kind)) ↔ ∃ e', parseConstraint sys k ⟨m, loc⟩ = .ok e') ∧
      ∀ e', parseConstraint sys k ⟨m, loc⟩ = .ok e' → abs e' = abs x := by
  obtain ⟨core, hmem, hg, _, _, _, ht⟩ := node_part h ho hx
  have hn : NumTok core := fun t ht => tokenize_numTok src t (hmem t ht)
  have ht' := (tokens_src ⟨m, loc⟩).trans (ht m hm)
  obtain ⟨toks, last, h1, h2, h3, h4⟩ := parseConstraint_tokens (sys := sys) (k := k) ht'
  have hk : kindsOf toks = kindsOf core := by
    have := congrArg (List.map Prod.fst) h2
    simpa [kindsOf, kindText, Function.comp_def] using this
  have hs : SameToks core toks := sameToks_of_kindText h2.symm
  have hbal : Balanced ((tokenize ⟨m, loc⟩).map (·.kind)) ↔ Balanced (kindsOf core) := by
    rw [h1, List.map_append, ← hk]
    constructor
    · intro hb
      refine ⟨?_, fun a b e => hb.2 a (b ++ [last.kind]) ?_⟩
      · have := hb.1
        simpa [kindsOf, h3] using this
      · rw [← List.append_assoc, ← e]; rfl
    · intro hb
      exact hb.append (by simpa [h3] using balanced_one (k := .endOfInput) nofun nofun)
  have key : Balanced (kindsOf core) → ∃ e', parseConstraint sys k ⟨m, loc⟩ = .ok e' ∧ abs e' = abs x := by
    intro hb
    obtain ⟨n, hg⟩ := hg hb
    obtain ⟨e', hg', ha⟩ := G_same hg hs
    exact ⟨e', (h4 e').2 (G_zero hg'), ha⟩
  refine ⟨⟨fun hb => ?_, fun ⟨e', he'⟩ => ?_⟩, fun e' he' => ?_⟩
  · obtain ⟨e', h, _⟩ := key (hbal.1 hb)
    exact ⟨e', h⟩
  · rw [hbal, ← hk]
    exact G_balanced ((h4 e').1 he')
  · obtain ⟨e'', h5, h6⟩ := key (by rw [← hk]; exact G_balanced ((h4 e').1 he'))
    rw [he'] at h5
    cases h5
    exact h6

/-- A part of a constraint without parentheses has none. -/
theorem node_plain {sys : Sys} {k : ConstraintKind} {src : ConstraintSource} {e x : Expr}
    (h : parseConstraint sys k src = .ok e) (ho : OneLine src) (hx : NodeOf x e)
    (hp : ∀ t ∈ tokenize src, t.kind ≠ .lpar ∧ t.kind ≠ .rpar) {m : Str}
    (hm : Between src x.start x.stop m) (loc : Loc) : Balanced ((tokenize ⟨m, loc⟩).map (·.kind)) := by
  obtain ⟨core, hmem, _, _, _, _, ht⟩ := node_part h ho hx
  have ht' := congrArg (List.map Prod.fst) ((tokens_src ⟨m, loc⟩).trans (ht m hm))
  have hk : (tokenize ⟨m, loc⟩).map (·.kind) = core.map (·.kind) ++ [.endOfInput] := by
    simpa [kindText, Function.comp_def] using ht'
  have hno : ∀ kd ∈ (tokenize ⟨m, loc⟩).map (·.kind), kd ≠ .lpar ∧ kd ≠ .rpar := by
    rw [hk]
    intro kd hkd
    rcases List.mem_append.1 hkd with h1 | h1
    · obtain ⟨t, h2, rfl⟩ := List.mem_map.1 h1
      exact hp t (hmem t h2)
    · cases List.mem_singleton.1 h1
      decide
  have hz : ∀ l : List Kind, (∀ kd ∈ l, kd ≠ .lpar ∧ kd ≠ .rpar) → l.count .lpar = 0 ∧ l.count .rpar = 0 :=
    fun l hl => ⟨List.count_eq_zero.2 fun h => (hl _ h).1 rfl, List.count_eq_zero.2 fun h => (hl _ h).2 rfl⟩
  refine ⟨?_, fun a b e => ?_⟩
  · rw [(hz _ hno).1, (hz _ hno).2]
  · rw [(hz a fun kd hkd => hno kd (by rw [e]; exact List.mem_append_left _ hkd)).2]
    exact Nat.zero_le _

end P4C
