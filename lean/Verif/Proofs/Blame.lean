import Verif.Proofs.Viable
import Verif.Proofs.Message
import Verif.Proofs.ParseTotal
import Verif.Proofs.Address

/-!
# The parser follows the recogniser
-/

namespace P4C

open Spec

/-- The kinds of tokens. -/
def kinds (ts : List Token) : List Kind := ts.map (·.kind)

/-- The text of a syntax error. -/
def reasonText (t : Token) : Reason → Str
  | .expected ks =>
    if t.kind = .unexpectedChar then c!"unexpected character at or after '" ++ t.text ++ c!"'."
    else c!"unexpected token: " ++ kindToKeyword t.kind ++ c!"." ++ expectedText ks
  | .nonAssoc => nonAssociativeText t.kind

/-- An address literal of `ts`, followed by `n` tokens, is not an address. -/
def BadAddress (x : Texts) (sys : Sys) (ts : List Token) (n : Nat) : Prop :=
  ∃ a i l v r b, ts = a ++ [i, l, v, r] ++ b ∧ b.length = n ∧ i.kind = .id ∧ l.kind = .lpar ∧ v.kind = .string ∧
    r.kind = .rpar ∧ ∀ e, makeNetworkAddressM x sys i.text v.text i.start r.stop ≠ .ok e

/-- `m` is the message about an address literal of `ts`, followed by `n` tokens. -/
def AddressError (x : Texts) (sys : Sys) (ts : List Token) (n : Nat) (m : Str) : Prop :=
  ∃ a i l v r b, ts = a ++ [i, l, v, r] ++ b ∧ b.length = n ∧ i.kind = .id ∧ l.kind = .lpar ∧ v.kind = .string ∧
    r.kind = .rpar ∧ makeNetworkAddressM x sys i.text v.text i.start r.stop = .err .invalidArgument m

/-- Outcomes of the parser and the recogniser that correspond. -/
inductive Sim (x : Texts) (src : ConstraintSource) (bad : Nat → Str → Prop) {α : Type} (s : Stream) :
    MRes (α × Stream) → RO → Prop where
  | ok (a : α) (s' : Stream) : SubStream s' s → Sim x src bad s (.ok (a, s')) (.ok (kinds s'.rest))
  | fail (d : Reason) (s' : Stream) : SubStream s' s →
      Sim x src bad s (parseErrorM x (reasonText s'.peek d) s'.peek src) (.fail d (kinds s'.rest))
  | addr (m : Str) (s' : Stream) : SubStream s' s → bad s'.rest.length m →
      Sim x src bad s (.err .invalidArgument m) (.addr (kinds s'.rest))
  | oof (o : RO) : Sim x src bad s .oof o

theorem parseErrorM_bind {α β : Type} (x : Texts) (text : Str) (t : Token) (src : ConstraintSource) (f : α → MRes β) :
    (parseErrorM x text t src >>= f) = parseErrorM x text t src := by
  unfold parseErrorM quotingErrorM
  cases quoteSub src t.start t.stop <;> rfl

theorem unexpectedM_eq {α : Type} (x : Texts) (t : Token) (ks : List Kind) (src : ConstraintSource) :
    (unexpectedM x t ks src : MRes α) = parseErrorM x (reasonText t (.expected ks)) t src := by
  unfold unexpectedM reasonText
  dsimp only
  by_cases h : t.kind = .unexpectedChar
  · rw [if_pos h, if_pos h]
  · rw [if_neg h, if_neg h]

section

variable {x : Texts} {src : ConstraintSource} {bad : Nat → Str → Prop} {α β : Type}

theorem Sim.sub {s s' : Stream} {m : MRes (α × Stream)} {o : RO} (h : Sim x src bad s' m o) (hs : SubStream s' s) :
    Sim x src bad s m o := by
  cases h with
  | ok a s'' h => exact .ok a s'' (h.trans hs)
  | fail d s'' h => exact .fail d s'' (h.trans hs)
  | addr m s'' h hb => exact .addr m s'' (h.trans hs) hb
  | oof o => exact .oof o

theorem Sim.bind {s : Stream} {m : MRes (α × Stream)} {o : RO} {f : α × Stream → MRes (β × Stream)} {g : List Kind → RO}
    (h : Sim x src bad s m o) (hf : ∀ a s', m = .ok (a, s') → SubStream s' s → Sim x src bad s' (f (a, s')) (g (kinds s'.rest))) :
    Sim x src bad s (m >>= f) (o.bind g) := by
  cases h with
  | ok a s' h => exact (hf a s' rfl h).sub h
  | fail d s' h => rw [parseErrorM_bind]; exact .fail d s' h
  | addr m s' h hb => exact .addr m s' h hb
  | oof o => exact .oof _

theorem Sim.map {s : Stream} {m : MRes (α × Stream)} {o : RO} {f : α × Stream → MRes (β × Stream)}
    (h : Sim x src bad s m o) (hf : ∀ a s', m = .ok (a, s') → ∃ b, f (a, s') = .ok (b, s')) :
    Sim x src bad s (m >>= f) o := by
  cases h with
  | ok a s' h =>
    obtain ⟨b, hb⟩ := hf a s' rfl
    show Sim x src bad s (f (a, s')) _
    rw [hb]
    exact .ok b s' h
  | fail d s' h => rw [parseErrorM_bind]; exact .fail d s' h
  | addr m s' h hb => exact .addr m s' h hb
  | oof o => exact .oof _

theorem hd_kinds (s : Stream) : hd (kinds s.rest) = s.peek.kind := by
  obtain ⟨rest, eof⟩ := s
  cases rest <;> rfl

theorem kinds_tail (s : Stream) : (kinds s.rest).tail = kinds s.next.rest := by
  obtain ⟨rest, eof⟩ := s
  cases rest <;> rfl

theorem SubStream.refl (s : Stream) : SubStream s s := ⟨rfl, [], rfl⟩

theorem sim_expect (k : Kind) (s : Stream) :
    Sim x src bad s (expectTokenKindM x k src s) (rExpect k (kinds s.rest)) := by
  unfold expectTokenKindM rExpect
  dsimp only
  rw [hd_kinds]
  by_cases h : s.peek.kind = k
  · rw [if_neg (by simpa using h), if_pos h, kinds_tail]
    exact .ok _ _ (SubStream.next s)
  · rw [if_pos h, if_neg h, unexpectedM_eq]
    exact .fail _ s (SubStream.refl s)

theorem expectM_ok {kd : Kind} {s : Stream} {r : Token × Stream} (h : expectTokenKindM x kd src s = .ok r) :
    r = (s.peek, s.next) ∧ s.peek.kind = kd := by
  unfold expectTokenKindM at h
  dsimp only at h
  by_cases hk : s.peek.kind = kd
  · rw [if_neg (by simpa using hk)] at h
    cases h
    exact ⟨rfl, hk⟩
  · rw [if_pos hk, unexpectedM_eq] at h
    unfold parseErrorM quotingErrorM at h
    cases hq : quoteSub src s.peek.start s.peek.stop <;> rw [hq] at h <;> cases h

theorem sim_dots : ∀ (f : Nat) (ids : List Token) (s : Stream), (∀ t ∈ ids, t.kind = .id) → ids ≠ [] →
    Sim x src bad s (parseDotsM x src f ids s) (rDots (kinds s.rest)) ∧
    ∀ r, parseDotsM x src f ids s = .ok r → (∀ t ∈ r.1, t.kind = .id) ∧ r.1 ≠ []
  | 0, ids, s, _, _ => ⟨.oof _, fun r h => by cases h⟩
  | f + 1, ids, s, hi, hne => by
    unfold parseDotsM
    rw [rDots_eq, hd_kinds]
    by_cases hd' : s.peek.kind = .dot
    · rw [if_pos hd', if_pos hd', kinds_tail]
      refine ⟨?_, ?_⟩
      · refine Sim.sub (Sim.bind (sim_expect .id s.next) ?_) (SubStream.next s)
        intro t s' h _
        obtain ⟨h1, h2⟩ := expectM_ok h
        cases h1
        refine (sim_dots f (ids ++ [s.next.peek]) s.next.next ?_ (by simp)).1
        intro t ht
        rcases List.mem_append.1 ht with ht | ht
        · exact hi t ht
        · rw [List.mem_singleton.1 ht]; exact h2
      · intro r hr
        cases he : expectTokenKindM x .id src s.next with
        | ok q =>
          rw [he] at hr
          obtain ⟨h1, h2⟩ := expectM_ok he
          subst h1
          refine (sim_dots f (ids ++ [s.next.peek]) s.next.next ?_ (by simp)).2 r hr
          intro t ht
          rcases List.mem_append.1 ht with ht | ht
          · exact hi t ht
          · rw [List.mem_singleton.1 ht]; exact h2
        | err => rw [he] at hr; cases hr
        | crash => rw [he] at hr; cases hr
        | oof => rw [he] at hr; cases hr
    · rw [if_neg hd', if_neg hd']
      exact ⟨.ok _ _ (SubStream.refl s), fun r h => by cases h; exact ⟨hi, hne⟩⟩

theorem makeVariableM_ok {ids : List Token} {k : ConstraintKind} (h : ∀ t ∈ ids, t.kind = .id) (hne : ids ≠ []) :
    ∃ e, makeVariableM x ids k = .ok e := by
  unfold makeVariableM
  cases ids with
  | nil => exact absurd rfl hne
  | cons t ts =>
    dsimp only
    rw [if_pos (by rw [List.all_eq_true]; intro t ht; simpa using h t ht)]
    cases k <;> exact ⟨_, rfl⟩

theorem convertNumeralM_ok {k : Kind} {b n : Nat} {s : Str} (hb : baseOf k = some b) (h : NumVal b s n) :
    ∃ r, convertNumeralM x k s = .ok r := by
  cases k <;> simp only [baseOf, Option.some.injEq, reduceCtorEq] at hb <;> subst hb <;>
  · simp only [convertNumeralM, h.setStr]; exact ⟨_, rfl⟩

theorem erase_ok {m : MRes α} {a : α} (h : m.erase = .ok a) : m = .ok a := by
  cases m <;> simp [MRes.erase] at h
  rw [h]

theorem erase_err {m : MRes α} {c : Code} (h : m.erase = .err c) : ∃ t, m = .err c t := by
  cases m <;> simp [MRes.erase] at h
  exact ⟨_, by rw [h]⟩

theorem mres_ok_bind (a : α) (f : α → MRes β) : (MRes.ok a >>= f) = f a := rfl

theorem RO.bind_assoc (o : RO) (f g : List Kind → RO) : (o.bind f).bind g = o.bind fun r => (f r).bind g := by
  cases o <;> rfl

/-- The first part of `parseAboveM`. -/
def headM (x : Texts) (sys : Sys) (k : ConstraintKind) (src : ConstraintSource)
    (rec : Nat → Stream → MRes (Expr × Stream)) (s0 : Stream) : MRes (Expr × Stream) :=
  let t := s0.peek
  let s := s0.next
  match t.kind with
  | .true_ | .false_ => do
    let e ← makeBooleanConstantM x t
    .ok (e, s)
  | .binary | .octary | .decimal | .hexadec => do
    let e ← makeIntegerConstantM x t
    .ok (e, s)
  | .id =>
    if s.peek.kind = .lpar then do
      let (strTok, s) ← expectTokenKindM x .string src s.next
      let (rpar, s) ← expectTokenKindM x .rpar src s
      let e ← makeNetworkAddressM x sys t.text strTok.text t.start rpar.stop
      .ok (e, s)
    else do
      let (ids, s) ← parseDotsM x src (s.rest.length + 1) [t] s
      let e ← makeVariableM x ids k
      .ok (e, s)
  | .doubleColon => do
    let (name, s) ← expectTokenKindM x .id src s
    let e ← makeAttributeAccessM t name
    .ok (e, s)
  | .bang => do
    let (e, s) ← rec (tokenPrecedence .bang) s
    let e ← makeBooleanNegationM x t e
    .ok (e, s)
  | .minus => do
    let (e, s) ← rec (tokenPrecedence .minus) s
    let e ← makeArithmeticNegationM x t e
    .ok (e, s)
  | .lpar => do
    let (e, s) ← rec 0 s
    let (_, s) ← expectTokenKindM x .rpar src s
    .ok (e, s)
  | _ => unexpectedM x t initialKinds src

theorem parseAboveM_succ (sys : Sys) (k : ConstraintKind) (f p : Nat) (s : Stream) :
    parseAboveM x sys k src (f + 1) p s =
      (headM x sys k src (parseAboveM x sys k src f) s >>= fun r => parseExtM x sys k src f p r.1 r.2) := by
  rw [parseAboveM]
  rfl

end

section

variable {x : Texts} {sys : Sys} {k : ConstraintKind} {src : ConstraintSource} {ts : List Token} {eof : Loc}

theorem sim_head {rec : Nat → Stream → MRes (Expr × Stream)} {rrec : Nat → List Kind → RO}
    (hrec : ∀ p s, SubStream s ⟨ts, eof⟩ → Sim x src (AddressError x sys ts) s (rec p s) (rrec p (kinds s.rest)))
    (hn : NumTok ts) {s : Stream} (hs : SubStream s ⟨ts, eof⟩) :
    Sim x src (AddressError x sys ts) s (headM x sys k src rec s) (rHead (BadAddress x sys ts) rrec (kinds s.rest)) := by
  have hnx : SubStream s.next s := SubStream.next s
  have num : ∀ b, baseOf s.peek.kind = some b →
      Sim x src (AddressError x sys ts) s (makeIntegerConstantM x s.peek >>= fun e => MRes.ok (e, s.next))
        (RO.ok (kinds s.next.rest)) := by
    intro b hb
    have hne : s.peek.kind ≠ .endOfInput := by intro e; rw [e] at hb; cases hb
    obtain ⟨n, hv⟩ := (hs.numTok hn) s.peek (by rw [peek_of_ne_end hne]; exact List.mem_cons_self) b hb
    obtain ⟨r, hr⟩ := convertNumeralM_ok (x := x) hb hv
    unfold makeIntegerConstantM
    rw [hr]
    exact .ok _ _ hnx
  have bool : s.peek.kind = .true_ ∨ s.peek.kind = .false_ →
      Sim x src (AddressError x sys ts) s (makeBooleanConstantM x s.peek >>= fun e => MRes.ok (e, s.next))
        (RO.ok (kinds s.next.rest)) := by
    intro h
    unfold makeBooleanConstantM
    rw [if_pos h]
    exact .ok _ _ hnx
  have other : Sim x src (AddressError x sys ts) s (unexpectedM x s.peek initialKinds src : MRes (Expr × Stream))
      (RO.fail (.expected initialKinds) (kinds s.rest)) := by
    rw [unexpectedM_eq]; exact .fail _ s (SubStream.refl s)
  unfold headM rHead
  dsimp only
  rw [hd_kinds, kinds_tail]
  cases hk : s.peek.kind <;> dsimp only
  case true_ => exact bool (.inl hk)
  case false_ => exact bool (.inr hk)
  case binary => exact num 2 (by rw [hk]; rfl)
  case octary => exact num 8 (by rw [hk]; rfl)
  case decimal => exact num 10 (by rw [hk]; rfl)
  case hexadec => exact num 16 (by rw [hk]; rfl)
  case bang =>
    refine Sim.sub (Sim.map (hrec 6 s.next (hnx.trans hs)) fun a s' _ => ?_) hnx
    unfold makeBooleanNegationM
    rw [if_pos hk]
    exact ⟨_, rfl⟩
  case minus =>
    refine Sim.sub (Sim.map (hrec 6 s.next (hnx.trans hs)) fun a s' _ => ?_) hnx
    unfold makeArithmeticNegationM
    rw [if_pos hk]
    exact ⟨_, rfl⟩
  case lpar =>
    refine Sim.sub (Sim.bind (hrec 0 s.next (hnx.trans hs)) fun a s' _ _ => ?_) hnx
    exact Sim.map (sim_expect .rpar s') fun _ _ _ => ⟨_, rfl⟩
  case doubleColon =>
    exact Sim.sub (Sim.map (sim_expect .id s.next) fun _ _ _ => ⟨_, rfl⟩) hnx
  case id =>
    rw [hd_kinds]
    by_cases hl : s.next.peek.kind = .lpar
    · rw [if_pos hl, if_pos hl, kinds_tail]
      rw [RO.bind_assoc]
      refine Sim.sub (Sim.bind (sim_expect .string s.next.next) ?_) ((SubStream.next _).trans hnx)
      intro strTok s' h1 _
      obtain ⟨h2, h3⟩ := expectM_ok h1
      cases h2
      refine Sim.bind (sim_expect .rpar s.next.next.next) ?_
      · intro t s' h4 _
        obtain ⟨h5, h6⟩ := expectM_ok h4
        cases h5
        have c1 := peek_of_ne_end (s := s) (by rw [hk]; decide)
        have c2 := peek_of_ne_end (s := s.next) (by rw [hl]; decide)
        have c3 := peek_of_ne_end (s := s.next.next) (by rw [h3]; decide)
        have c4 := peek_of_ne_end (s := s.next.next.next) (by rw [h6]; decide)
        obtain ⟨-, pre, hpre⟩ := hs
        have hts : ts = pre ++ [s.peek, s.next.peek, s.next.next.peek, s.next.next.next.peek] ++
            s.next.next.next.next.rest := by
          change ts = _ at hpre
          rw [hpre, c1, c2, c3, c4]
          simp
        have hlen : (kinds s.next.next.next.next.rest).length = s.next.next.next.next.rest.length := by simp [kinds]
        unfold rCheck
        rw [hlen]
        dsimp only
        cases hm : makeNetworkAddressM x sys s.peek.text s.next.next.peek.text s.peek.start
            s.next.next.next.peek.stop with
        | ok e =>
          have hb : ¬ BadAddress x sys ts s.next.next.next.next.rest.length := by
            rintro ⟨a, i, l, v, r, b, e1, e2, -, -, -, -, e3⟩
            rw [hts] at e1
            have e5 := List.append_inj' e1 e2.symm
            have e6 := List.append_inj' e5.1 rfl
            have e7 := e6.2
            simp only [List.cons.injEq, and_true] at e7
            obtain ⟨rfl, -, rfl, rfl⟩ := e7
            exact e3 e hm
          rw [if_neg hb]
          exact .ok _ _ (SubStream.refl _)
        | err c m =>
          have hb : BadAddress x sys ts s.next.next.next.next.rest.length :=
            ⟨pre, _, _, _, _, _, hts, rfl, hk, hl, h3, h6, fun e h => by rw [hm] at h; cases h⟩
          rw [if_pos hb]
          have hc : c = .invalidArgument := by
            have he := erase_makeNetworkAddress x sys s.peek.text s.next.next.peek.text s.peek.start s.next.next.next.peek.stop
            rw [hm] at he
            rcases address_total sys s.peek.text s.next.next.peek.text s.peek.start s.next.next.next.peek.stop with ⟨a, h⟩ | h
            · rw [h] at he; cases he
            · rw [h] at he; cases he; rfl
          subst hc
          exact .addr m _ (SubStream.refl _) ⟨pre, _, _, _, _, _, hts, rfl, hk, hl, h3, h6, hm⟩
        | crash =>
          exfalso
          have he := erase_makeNetworkAddress x sys s.peek.text s.next.next.peek.text s.peek.start s.next.next.next.peek.stop
          rw [hm] at he
          rcases address_total sys s.peek.text s.next.next.peek.text s.peek.start s.next.next.next.peek.stop with ⟨a, h⟩ | h
          · rw [h] at he; cases he
          · rw [h] at he; cases he
        | oof => exact .oof _
    · rw [if_neg hl, if_neg hl]
      have hd := sim_dots (x := x) (src := src) (bad := AddressError x sys ts) (s.next.rest.length + 1) [s.peek] s.next
        (by simpa using hk) (by simp)
      refine Sim.sub (Sim.map hd.1 fun ids s' h => ?_) hnx
      obtain ⟨h1, h2⟩ := hd.2 _ h
      obtain ⟨e, he⟩ := makeVariableM_ok (x := x) (k := k) h1 h2
      dsimp only
      rw [he]
      exact ⟨e, rfl⟩
  all_goals exact other

theorem sim_ext {f : Nat}
    (iha : ∀ p s, SubStream s ⟨ts, eof⟩ →
      Sim x src (AddressError x sys ts) s (parseAboveM x sys k src f p s) (rAbove (BadAddress x sys ts) f p (kinds s.rest)))
    {p : Nat} (ihe : ∀ e s, SubStream s ⟨ts, eof⟩ →
      Sim x src (AddressError x sys ts) s (parseExtM x sys k src f p e s) (rExt (BadAddress x sys ts) f p (kinds s.rest)))
    (e : Expr) {s : Stream} (hs : SubStream s ⟨ts, eof⟩) :
    Sim x src (AddressError x sys ts) s (parseExtM x sys k src (f + 1) p e s)
      (rExt (BadAddress x sys ts) (f + 1) p (kinds s.rest)) := by
  rw [rExt_succ, parseExtM]
  unfold rLoop
  dsimp only
  rw [hd_kinds, kinds_tail, hd_kinds]
  by_cases h1 : s.peek.kind = .endOfInput ∨ s.peek.kind = .rpar
  · rw [if_pos h1, if_pos h1]
    exact .ok _ _ (SubStream.refl s)
  rw [if_neg h1, if_neg h1]
  by_cases h2 : ¬ isExtension s.peek.kind = true
  · rw [if_neg h2, if_neg h2, unexpectedM_eq]
    exact .fail _ _ (SubStream.refl s)
  rw [Classical.not_not] at h2
  rw [if_pos h2, if_pos h2]
  by_cases h3 : p = tokenPrecedence s.peek.kind ∧ tokenAssociativity s.peek.kind = .none
  · rw [if_pos h3, if_pos h3]
    exact .fail .nonAssoc s (SubStream.refl s)
  rw [if_neg h3, if_neg h3]
  by_cases h4 : p > tokenPrecedence s.peek.kind ∨ (p = tokenPrecedence s.peek.kind ∧ tokenAssociativity s.peek.kind = .left)
  · rw [if_pos h4, if_pos h4]
    exact .ok _ _ (SubStream.refl s)
  rw [if_neg h4, if_neg h4]
  by_cases h5 : s.peek.kind = .semicolon ∧ (s.next.peek.kind = .endOfInput ∨ s.next.peek.kind = .rpar)
  · rw [if_pos h5, if_pos h5]
    exact .ok _ _ (SubStream.next s)
  rw [if_neg h5, if_neg h5]
  by_cases h6 : s.peek.kind = .doubleColon
  · rw [if_pos h6, if_pos h6]
    refine Sim.sub (Sim.bind (sim_expect .id s.next) ?_) (SubStream.next s)
    intro t s' h7 h8
    obtain ⟨h9, h10⟩ := expectM_ok h7
    cases h9
    unfold makeFieldAccessM
    dsimp only
    rw [if_pos h10]
    exact ihe _ _ (h8.trans ((SubStream.next s).trans hs))
  · rw [if_neg h6, if_neg h6]
    refine Sim.sub (Sim.bind (iha _ _ ((SubStream.next s).trans hs)) ?_) (SubStream.next s)
    intro another s' _ h8
    obtain ⟨op, hop⟩ : ∃ op, convertBinaryOperatorM s.peek.kind = .ok op := by
      generalize s.peek.kind = kd at h2 h6
      cases kd <;> first | exact ⟨_, rfl⟩ | exact absurd h2 (by decide) | exact absurd rfl h6
    unfold makeBinaryExpressionM
    dsimp only
    rw [hop]
    exact ihe _ _ (h8.trans ((SubStream.next s).trans hs))

theorem sim_parse (hn : NumTok ts) : ∀ f,
    (∀ p s, SubStream s ⟨ts, eof⟩ →
      Sim x src (AddressError x sys ts) s (parseAboveM x sys k src f p s) (rAbove (BadAddress x sys ts) f p (kinds s.rest))) ∧
    (∀ p e s, SubStream s ⟨ts, eof⟩ →
      Sim x src (AddressError x sys ts) s (parseExtM x sys k src f p e s) (rExt (BadAddress x sys ts) f p (kinds s.rest)))
  | 0 => by
    refine ⟨fun p s _ => ?_, fun p e s _ => ?_⟩
    · rw [parseAboveM]; exact .oof _
    · rw [parseExtM]; exact .oof _
  | f + 1 => by
    obtain ⟨ih1, ih2⟩ := sim_parse hn f
    refine ⟨fun p s hs => ?_, fun p e s hs => sim_ext ih1 (ih2 p) e hs⟩
    rw [parseAboveM_succ, rAbove_succ]
    refine Sim.bind (sim_head ih1 hn hs) ?_
    intro a s' _ h
    exact ih2 p a s' (h.trans hs)

end

/-! ### Constraints -/

/-- A token of the given kind with a text that suits it. -/
def canon (k : Kind) : Token :=
  ⟨k, match k with
    | .id => c!"ipv4"
    | .string => c!"0.0.0.0"
    | .binary | .octary | .decimal | .hexadec => c!"0"
    | _ => [], {}, {}⟩

theorem kinds_canon (ks : List Kind) : kinds (ks.map canon) = ks := by
  induction ks with
  | nil => rfl
  | cons k ks ih => exact congrArg (k :: ·) ih

theorem numTok_canon (ks : List Kind) : NumTok (ks.map canon) := by
  intro t ht b hb
  obtain ⟨k, _, rfl⟩ := List.mem_map.1 ht
  cases k <;> simp only [canon, baseOf, reduceCtorEq, Option.some.injEq] at hb <;> subst hb <;>
    exact ⟨0, .one (by decide) (by decide)⟩

theorem names_dotted {ks : List Kind} (h : Names ks) : ∃ name a b, Dotted c!"." (ks.map canon) name a b := by
  induction h with
  | one => exact ⟨_, _, _, Dotted.one rfl⟩
  | snoc _ ih =>
    obtain ⟨name, a, b, h⟩ := ih
    rw [List.map_append]
    exact ⟨_, _, _, Dotted.snoc h rfl rfl⟩

theorem canonical_exists (n : Nat) : ∃ s, Canonical s n := ⟨natDec n, natDec_canonical n⟩

theorem zero_octet : Octet c!"0" 0 := ⟨.one (by decide) (by decide), by decide, by decide⟩

theorem shape_G (pton : Str → Option Bytes) {n : Nat} {ks : List Kind} (h : Shape n ks) :
    ∃ e, G pton .table n (ks.map canon) e := by
  induction h with
  | true_ => exact ⟨_, G.true_ rfl⟩
  | false_ => exact ⟨_, G.false_ rfl⟩
  | numeral hb =>
    rename_i k b
    obtain ⟨m, hm⟩ := numTok_canon [k] (canon k) (by simp) b hb
    obtain ⟨s, hs⟩ := canonical_exists m
    exact ⟨_, G.numeral hb hm hs⟩
  | address =>
    have h := Address.ipv4 (pton := pton) zero_octet zero_octet zero_octet zero_octet
    obtain ⟨s, hs⟩ := canonical_exists (0 * 2 ^ 24 + 0 * 2 ^ 16 + 0 * 2 ^ 8 + 0)
    exact ⟨_, G.address rfl rfl rfl rfl h hs⟩
  | name h =>
    obtain ⟨name, a, b, h⟩ := names_dotted h
    exact ⟨_, G.key rfl h⟩
  | attr => exact ⟨_, G.attr rfl rfl⟩
  | paren _ ih =>
    obtain ⟨e, h⟩ := ih
    refine ⟨e, ?_⟩
    rw [List.map_append, List.map_cons]
    exact G.paren rfl h rfl
  | up hn _ ih =>
    obtain ⟨e, h⟩ := ih
    exact ⟨e, G.up hn h⟩
  | field _ ih =>
    obtain ⟨e, h⟩ := ih
    rw [List.map_append]
    exact ⟨_, G.field h rfl rfl⟩
  | not _ ih =>
    obtain ⟨e, h⟩ := ih
    exact ⟨_, G.not rfl h⟩
  | neg _ ih =>
    obtain ⟨e, h⟩ := ih
    exact ⟨_, G.neg rfl h⟩
  | bin hi _ _ ih1 ih2 =>
    obtain ⟨e, h1⟩ := ih1
    obtain ⟨f, h2⟩ := ih2
    rw [List.map_append, List.map_cons]
    exact ⟨_, G.bin (o := canon _) hi h1 h2⟩
  | trailing _ ih =>
    obtain ⟨e, h⟩ := ih
    rw [List.map_append]
    exact ⟨_, G.trailing h rfl⟩

theorem dotted_kinds {sep : Str} {ts : List Token} {name : Str} {a b : Loc} (h : Dotted sep ts name a b) :
    Names (kinds ts) := by
  induction h with
  | one h => unfold kinds; rw [List.map_singleton, h]; exact .one
  | snoc _ hd ht ih =>
    unfold kinds
    rw [List.map_append, List.map_cons, List.map_cons, hd, ht]
    exact .snoc ih

theorem G_shape {pton : Str → Option Bytes} {k : ConstraintKind} {n : Nat} {ts : List Token} {e : Expr}
    (h : G pton k n ts e) : Shape n (kinds ts) := by
  unfold kinds
  induction h with
  | true_ h => rw [List.map_singleton, h]; exact .true_
  | false_ h => rw [List.map_singleton, h]; exact .false_
  | numeral h => exact .numeral h
  | address h1 h2 h3 h4 => simp only [List.map_cons, List.map_nil, h1, h2, h3, h4]; exact .address
  | key _ h => exact .name (dotted_kinds h)
  | param _ h => exact .name (dotted_kinds h)
  | attr h1 h2 => simp only [List.map_cons, List.map_nil, h1, h2]; exact .attr
  | paren h1 _ h2 ih => simp only [List.map_append, List.map_cons, List.map_nil, h1, h2]; exact .paren ih
  | up h _ ih => exact .up h ih
  | field _ h1 h2 ih => simp only [List.map_append, List.map_cons, List.map_nil, h1, h2]; exact .field ih
  | not h _ ih => rw [List.map_cons, h]; exact .not ih
  | neg h _ ih => rw [List.map_cons, h]; exact .neg ih
  | bin hi _ _ ih1 ih2 => rw [List.map_append, List.map_cons]; exact .bin hi ih1 ih2
  | trailing _ h ih => rw [List.map_append, List.map_singleton, h]; exact .trailing ih

/-- The recogniser accepts whole constraints. -/
theorem r_complete {ks : List Kind} (h : Sentence ks) : ∃ f r, rAbove (fun _ => False) f 0 ks = .ok r ∧
    hd r = .endOfInput := by
  obtain ⟨a, ha, rfl⟩ := h
  have x : Texts := ⟨fun _ _ _ => [], [], fun _ => [], fun _ => [], fun _ => [], fun _ => [], fun _ => [], fun _ => [], fun _ => []⟩
  have src : ConstraintSource := { str := [] }
  obtain ⟨e, hg⟩ := shape_G (fun _ => none) ha
  have hn := numTok_canon (a ++ [Kind.endOfInput])
  have hc : Constraint (Sys.mk fun _ => none).inetPton6 .table ((a ++ [Kind.endOfInput]).map canon) e :=
    ⟨a.map canon, [canon Kind.endOfInput], by rw [List.map_append]; rfl, hg, .inr ⟨_, _, rfl, rfl⟩⟩
  have hp := (parseTokens_iff (src := src) hn).2 hc
  have hp' := erase_ok ((erase_parseTokens x _ _ _ _).trans hp)
  unfold parseTokensM at hp'
  generalize (2 * ((a ++ [Kind.endOfInput]).map canon).length + 2) = f at hp'
  have sim := (sim_parse (x := x) (sys := ⟨fun _ => none⟩) (k := .table) (src := src)
    (eof := eofLoc ((a ++ [Kind.endOfInput]).map canon)) hn f).1 0 _ (SubStream.refl _)
  revert hp'
  cases hm : parseAboveM x ⟨fun _ => none⟩ .table src f 0 ⟨(a ++ [Kind.endOfInput]).map canon, eofLoc ((a ++ [Kind.endOfInput]).map canon)⟩ with
  | ok r =>
    obtain ⟨e', s⟩ := r
    intro hp'
    rw [hm] at sim
    cases hE : expectTokenKindM x .endOfInput src s with
    | ok q =>
      obtain ⟨_, hk⟩ := expectM_ok hE
      have hr : rAbove (BadAddress x ⟨fun _ => none⟩ ((a ++ [Kind.endOfInput]).map canon)) f 0
          (a ++ [.endOfInput]) = .ok (kinds s.rest) := by
        dsimp only at sim
        rw [kinds_canon] at sim
        generalize rAbove _ f 0 _ = z at sim ⊢
        generalize hy : MRes.ok (e', s) = y at sim
        cases sim with
        | ok a s' _ => cases hy; rfl
        | fail d s' _ =>
          exfalso
          unfold parseErrorM quotingErrorM at hy
          cases hq : quoteSub src s'.peek.start s'.peek.stop <;> rw [hq] at hy <;> cases hy
        | addr => cases hy
        | oof => cases hy
      rcases (r_mono _ f 0).1 0 (a ++ [.endOfInput]) with h | ⟨r, h⟩ | h
      · rw [hr] at h; cases h
      · rw [hr] at h; cases h
      · exact ⟨f + 0, _, h.symm.trans hr, by rw [hd_kinds]; exact hk⟩
    | err c m => rw [mres_ok_bind] at hp'; dsimp only at hp'; rw [hE] at hp'; cases hp'
    | crash => rw [mres_ok_bind] at hp'; dsimp only at hp'; rw [hE] at hp'; cases hp'
    | oof => rw [mres_ok_bind] at hp'; dsimp only at hp'; rw [hE] at hp'; cases hp'
  | err c m => intro hp'; cases hp'
  | crash => intro hp'; cases hp'
  | oof => intro hp'; cases hp'

theorem r_agree {bad : Nat → Prop} {f g p : Nat} {ks : List Kind} {o o' : RO}
    (h : rAbove bad f p ks = o) (h' : rAbove (fun _ => False) g p ks = o') (hne : o ≠ .oof) (ha : ∀ r, o ≠ .addr r)
    (hne' : o' ≠ .oof) (ha' : ∀ r, o' ≠ .addr r) : o = o' := by
  have m1 := (r_mono bad f g).1 p ks
  have m2 := (r_mono (fun _ => False) g f).1 p ks
  rw [h] at m1
  rw [h', Nat.add_comm g f] at m2
  have e1 : o = rAbove (fun _ => False) (f + g) p ks := by
    rcases m1 with m | ⟨r, m⟩ | m
    · exact absurd m hne
    · exact absurd m (ha r)
    · exact m
  have e2 : o' = rAbove (fun _ => False) (f + g) p ks := by
    rcases m2 with m | ⟨r, m⟩ | m
    · exact absurd m hne'
    · exact absurd m (ha' r)
    · exact m
  rw [e1, e2]

/-- Where the recogniser fails, no constraint continues. -/
theorem fail_not_viable {bad : Nat → Prop} {f : Nat} {a r : List Kind} {d : Reason} {t : Kind}
    (h : rAbove bad f 0 (a ++ t :: r) = .fail d (t :: r)) : ¬ Viable (a ++ [t]) := by
  rintro ⟨rest, hs⟩
  rw [List.append_assoc] at hs
  obtain ⟨g, r', hg, hr'⟩ := r_complete hs
  have h0 : rAbove (fun _ => False) f 0 (a ++ t :: r) = .fail d (t :: r) := by
    rcases (r_mono bad f 0).1 0 (a ++ t :: r) with m | ⟨q, m⟩ | m
    · rw [h] at m; cases m
    · rw [h] at m; cases m
    · rw [← h]; exact m.symm
  obtain ⟨a', e, hl⟩ := ((r_local f).1 0 (a ++ t :: r)).2 _ _ h0
  have := List.append_cancel_right e
  subst this
  have h1 := hl (t :: rest) rfl
  have := r_agree h1 hg (by simp) (by simp) (by simp) (by simp)
  cases this

/-- Likewise where the recogniser stops before the end. -/
theorem stop_not_viable {bad : Nat → Prop} {f : Nat} {a r : List Kind} {t : Kind}
    (h : rAbove bad f 0 (a ++ t :: r) = .ok (t :: r)) (ht : t ≠ .endOfInput) : ¬ Viable (a ++ [t]) := by
  rintro ⟨rest, hs⟩
  rw [List.append_assoc] at hs
  obtain ⟨g, r', hg, hr'⟩ := r_complete hs
  have h0 : rAbove (fun _ => False) f 0 (a ++ t :: r) = .ok (t :: r) := by
    rcases (r_mono bad f 0).1 0 (a ++ t :: r) with m | ⟨q, m⟩ | m
    · rw [h] at m; cases m
    · rw [h] at m; cases m
    · rw [← h]; exact m.symm
  obtain ⟨a', e, hl⟩ := ((r_local f).1 0 (a ++ t :: r)).1 _ h0
  have := List.append_cancel_right e
  subst this
  have h1 := hl (t :: rest) rfl
  have := r_agree h1 hg (by simp) (by simp) (by simp) (by simp)
  cases this
  exact ht hr'

end P4C
