import Verif.Spec.Diagnosis
import Verif.Model.Message
import Verif.Proofs.Parse

/-!
# A recogniser of token kinds
The control flow of the parser, without trees.
-/

namespace P4C

open Spec

/-- The reason of a syntax error. -/
inductive Reason where
  | expected (ks : List Kind)
  | nonAssoc

/-- Outcomes: success, a syntax error, or an address literal that has been declared bad; with the tokens left. -/
inductive RO where
  | ok (rest : List Kind)
  | fail (d : Reason) (rest : List Kind)
  | addr (rest : List Kind)
  | oof

def RO.bind : RO → (List Kind → RO) → RO
  | .ok r, f => f r
  | .fail d r, _ => .fail d r
  | .addr r, _ => .addr r
  | .oof, _ => .oof

/-- The next token kind. -/
def hd (ks : List Kind) : Kind := ks.headD .endOfInput

def rExpect (k : Kind) (ks : List Kind) : RO := if hd ks = k then .ok ks.tail else .fail (.expected [k]) ks

def rDots : List Kind → RO
  | .dot :: .id :: ks => rDots ks
  | .dot :: ks => .fail (.expected [.id]) ks
  | ks => .ok ks

open Classical in
/-- An address literal of which `ks` is left is declared bad. -/
noncomputable def rCheck (bad : Nat → Prop) (ks : List Kind) : RO := if bad ks.length then .addr ks else .ok ks

noncomputable def rHead (bad : Nat → Prop) (rec : Nat → List Kind → RO) (ks : List Kind) : RO :=
  match hd ks with
  | .true_ | .false_ | .binary | .octary | .decimal | .hexadec => .ok ks.tail
  | .id =>
    if hd ks.tail = .lpar then ((rExpect .string ks.tail.tail).bind (rExpect .rpar)).bind (rCheck bad)
    else rDots ks.tail
  | .doubleColon => rExpect .id ks.tail
  | .bang | .minus => rec 6 ks.tail
  | .lpar => (rec 0 ks.tail).bind (rExpect .rpar)
  | _ => .fail (.expected initialKinds) ks

noncomputable def rLoop (above : Nat → List Kind → RO) (ext : List Kind → RO) (p : Nat) (ks : List Kind) : RO :=
  if hd ks = .endOfInput ∨ hd ks = .rpar then .ok ks
  else if isExtension (hd ks) then
    if p = tokenPrecedence (hd ks) ∧ tokenAssociativity (hd ks) = .none then .fail .nonAssoc ks
    else if p > tokenPrecedence (hd ks) ∨ (p = tokenPrecedence (hd ks) ∧ tokenAssociativity (hd ks) = .left) then .ok ks
    else if hd ks = .semicolon ∧ (hd ks.tail = .endOfInput ∨ hd ks.tail = .rpar) then .ok ks.tail
    else if hd ks = .doubleColon then (rExpect .id ks.tail).bind ext
    else (above (tokenPrecedence (hd ks)) ks.tail).bind ext
  else .fail (.expected extensionKinds) ks

mutual

noncomputable def rAbove (bad : Nat → Prop) : Nat → Nat → List Kind → RO
  | 0, _, _ => .oof
  | f + 1, p, ks => (rHead bad (rAbove bad f) ks).bind (rExt bad f p)

noncomputable def rExt (bad : Nat → Prop) : Nat → Nat → List Kind → RO
  | 0, _, _ => .oof
  | f + 1, p, ks => rLoop (rAbove bad f) (rExt bad f p) p ks

end

theorem rAbove_succ (bad : Nat → Prop) (f p : Nat) (ks : List Kind) :
    rAbove bad (f + 1) p ks = (rHead bad (rAbove bad f) ks).bind (rExt bad f p) := by rw [rAbove]

theorem rExt_succ (bad : Nat → Prop) (f p : Nat) (ks : List Kind) :
    rExt bad (f + 1) p ks = rLoop (rAbove bad f) (rExt bad f p) p ks := by rw [rExt]

/-! ### Monotonicity -/

/-- `a` is undecided, or equals `b`. -/
def RO.Le (a b : RO) : Prop := a = .oof ∨ (∃ r, a = .addr r) ∨ a = b

theorem RO.Le.refl (a : RO) : RO.Le a a := .inr (.inr rfl)

theorem RO.Le.bind {a b : RO} {f g : List Kind → RO} (h : RO.Le a b) (hf : ∀ r, RO.Le (f r) (g r)) :
    RO.Le (a.bind f) (b.bind g) := by
  rcases h with rfl | ⟨r, rfl⟩ | rfl
  · exact .inl rfl
  · exact .inr (.inl ⟨r, rfl⟩)
  · cases a with
    | ok r => exact hf r
    | _ => exact .refl _

theorem rCheck_le (bad : Nat → Prop) (ks : List Kind) : RO.Le (rCheck bad ks) (rCheck (fun _ => False) ks) := by
  unfold rCheck
  rw [if_neg id]
  by_cases h : bad ks.length
  · rw [if_pos h]; exact .inr (.inl ⟨_, rfl⟩)
  · rw [if_neg h]; exact .refl _

theorem rHead_le {bad : Nat → Prop} {rec rec' : Nat → List Kind → RO} (h : ∀ p ks, RO.Le (rec p ks) (rec' p ks))
    (ks : List Kind) : RO.Le (rHead bad rec ks) (rHead (fun _ => False) rec' ks) := by
  unfold rHead
  generalize hd ks = k
  cases k <;> dsimp only <;> try exact RO.Le.refl _
  · exact h _ _
  · exact h _ _
  · exact (h _ _).bind fun _ => .refl _
  · by_cases hl : hd ks.tail = .lpar
    · rw [if_pos hl, if_pos hl]
      exact (RO.Le.refl _).bind (rCheck_le bad)
    · rw [if_neg hl, if_neg hl]; exact .refl _

theorem rLoop_le {above above' : Nat → List Kind → RO} {ext ext' : List Kind → RO}
    (ha : ∀ p ks, RO.Le (above p ks) (above' p ks)) (he : ∀ ks, RO.Le (ext ks) (ext' ks)) (p : Nat) (ks : List Kind) :
    RO.Le (rLoop above ext p ks) (rLoop above' ext' p ks) := by
  unfold rLoop
  repeat' split
  all_goals first
    | exact RO.Le.refl _
    | exact (RO.Le.refl _).bind he
    | exact (ha _ _).bind he

theorem r_mono (bad : Nat → Prop) : ∀ f d,
    (∀ p ks, RO.Le (rAbove bad f p ks) (rAbove (fun _ => False) (f + d) p ks)) ∧
    (∀ p ks, RO.Le (rExt bad f p ks) (rExt (fun _ => False) (f + d) p ks)) := by
  intro f
  induction f with
  | zero => exact fun d => ⟨(fun p ks => .inl (by rw [rAbove])), (fun p ks => .inl (by rw [rExt]))⟩
  | succ f ih =>
    intro d
    obtain ⟨ih1, ih2⟩ := ih d
    rw [Nat.add_right_comm]
    refine ⟨fun p ks => ?_, fun p ks => ?_⟩
    · rw [rAbove_succ, rAbove_succ]
      exact (rHead_le ih1 ks).bind (ih2 p)
    · rw [rExt_succ, rExt_succ]
      exact rLoop_le ih1 (ih2 p) p ks

/-! ### Locality: the outcome depends on the tokens consumed and the next one -/

/-- The outcome of `g` on `ks` is determined by the tokens consumed and the kind of the next one. -/
def LocalAt (g : List Kind → RO) (ks : List Kind) : Prop :=
  (∀ r, g ks = .ok r → ∃ a, ks = a ++ r ∧ ∀ r', hd r' = hd r → g (a ++ r') = .ok r') ∧
  (∀ d r, g ks = .fail d r → ∃ a, ks = a ++ r ∧ ∀ r', hd r' = hd r → g (a ++ r') = .fail d r')

theorem hd_append {a r r' : List Kind} (h : hd r' = hd r) : hd (a ++ r') = hd (a ++ r) := by
  cases a with
  | nil => exact h
  | cons => rfl

theorem LocalAt.ok {ks : List Kind} : LocalAt .ok ks :=
  ⟨(fun r h => ⟨[], by cases h; rfl, fun _ _ => rfl⟩), (fun _ _ h => by cases h)⟩

theorem LocalAt.fail {d : Reason} {ks : List Kind} : LocalAt (.fail d) ks :=
  ⟨(fun _ h => by cases h), (fun d r h => ⟨[], by cases h; rfl, fun _ _ => by cases h; rfl⟩)⟩

theorem LocalAt.bind {g h : List Kind → RO} {ks : List Kind} (hg : LocalAt g ks) (hh : ∀ r, g ks = .ok r → LocalAt h r) :
    LocalAt (fun ks => (g ks).bind h) ks := by
  obtain ⟨g1, g2⟩ := hg
  refine ⟨fun r e => ?_, fun d r e => ?_⟩ <;> dsimp only at e ⊢ <;> cases hk : g ks
  case refine_1.ok m =>
    rw [hk] at e
    obtain ⟨a, ha, ha'⟩ := g1 m hk
    obtain ⟨b, hb, hb'⟩ := (hh m hk).1 r e
    refine ⟨a ++ b, by rw [ha, hb, List.append_assoc], fun r' h' => ?_⟩
    rw [List.append_assoc, ha' (b ++ r') (by rw [hb]; exact hd_append h')]
    exact hb' r' h'
  case refine_2.ok m =>
    rw [hk] at e
    obtain ⟨a, ha, ha'⟩ := g1 m hk
    obtain ⟨b, hb, hb'⟩ := (hh m hk).2 d r e
    refine ⟨a ++ b, by rw [ha, hb, List.append_assoc], fun r' h' => ?_⟩
    rw [List.append_assoc, ha' (b ++ r') (by rw [hb]; exact hd_append h')]
    exact hb' r' h'
  case refine_2.fail =>
    rw [hk] at e
    cases e
    obtain ⟨a, ha, ha'⟩ := g2 d r hk
    exact ⟨a, ha, fun r' h' => by rw [ha' r' h']; rfl⟩
  all_goals rw [hk] at e; cases e

/-- Consuming a token. -/
theorem LocalAt.tail {g : List Kind → RO} {ks : List Kind} (h : hd ks ≠ .endOfInput) (hg : LocalAt g ks.tail) :
    LocalAt (fun ks => g ks.tail) ks := by
  cases ks with
  | nil => exact absurd rfl h
  | cons k ks =>
    obtain ⟨g1, g2⟩ := hg
    refine ⟨fun r e => ?_, fun d r e => ?_⟩
    · obtain ⟨a, ha, ha'⟩ := g1 r e
      exact ⟨k :: a, by rw [List.tail_cons] at ha; rw [ha]; rfl, ha'⟩
    · obtain ⟨a, ha, ha'⟩ := g2 d r e
      exact ⟨k :: a, by rw [List.tail_cons] at ha; rw [ha]; rfl, ha'⟩

/-- Branching on the next token. -/
theorem LocalAt.branch {g g' : List Kind → RO} {ks : List Kind} (h : ∀ ks', hd ks' = hd ks → g ks' = g' ks')
    (hg : LocalAt g' ks) : LocalAt g ks := by
  obtain ⟨g1, g2⟩ := hg
  refine ⟨fun r e => ?_, fun d r e => ?_⟩
  · rw [h ks rfl] at e
    obtain ⟨a, ha, ha'⟩ := g1 r e
    exact ⟨a, ha, fun r' h' => by rw [h _ (by rw [ha]; exact hd_append h')]; exact ha' r' h'⟩
  · rw [h ks rfl] at e
    obtain ⟨a, ha, ha'⟩ := g2 d r e
    exact ⟨a, ha, fun r' h' => by rw [h _ (by rw [ha]; exact hd_append h')]; exact ha' r' h'⟩

/-- Both. -/
theorem LocalAt.step {g : List Kind → RO} {ks : List Kind} (g' : List Kind → RO)
    (h : ∀ ks', hd ks' = hd ks → g ks' = g' ks'.tail) (hk : hd ks ≠ .endOfInput) (hg : LocalAt g' ks.tail) :
    LocalAt g ks :=
  LocalAt.branch (g' := fun ks => g' ks.tail) h (LocalAt.tail hk hg)

theorem localAt_expect {k : Kind} (hk : k ≠ .endOfInput) (ks : List Kind) : LocalAt (rExpect k) ks := by
  by_cases h : hd ks = k
  · refine LocalAt.branch (g' := fun ks => RO.ok ks.tail) ?_ (LocalAt.tail (by rw [h]; exact hk) LocalAt.ok)
    intro ks' h'
    unfold rExpect
    rw [if_pos (h'.trans h)]
  · refine LocalAt.branch (g' := RO.fail (.expected [k])) ?_ LocalAt.fail
    intro ks' h'
    unfold rExpect
    rw [if_neg (by rw [h']; exact h)]

theorem rDots_eq (ks : List Kind) :
    rDots ks = if hd ks = .dot then (rExpect .id ks.tail).bind rDots else .ok ks := by
  rcases ks with _ | ⟨k, _ | ⟨k', ks⟩⟩
  · rfl
  · cases k <;> rfl
  · cases k <;> try rfl
    cases k' <;> rfl

theorem localAt_dots : ∀ (n : Nat) (ks : List Kind), ks.length ≤ n → LocalAt rDots ks
  | n, ks, hn => by
    by_cases h : hd ks = .dot
    · have hne : ks ≠ [] := by rintro rfl; cases h
      refine LocalAt.branch (g' := fun ks => (rExpect .id ks.tail).bind rDots) ?_ ?_
      · intro ks' h'
        rw [rDots_eq, if_pos (h'.trans h)]
      · have hloc := localAt_expect (k := .id) (by decide) ks.tail
        cases ks with
        | nil => exact absurd rfl hne
        | cons k ks =>
        -- the tail of the loop is shorter
        have ih : ∀ r, rExpect .id ks = .ok r → LocalAt rDots r := by
          intro r hr
          unfold rExpect at hr
          split at hr
          · cases hr
            cases n with
            | zero => simp at hn
            | succ n => exact localAt_dots n _ (by simp at hn ⊢; omega)
          · cases hr
        refine LocalAt.tail (g := fun ks => (rExpect .id ks).bind rDots) (by rw [h]; decide) ?_
        exact LocalAt.bind hloc ih
    · refine LocalAt.branch (g' := RO.ok) ?_ LocalAt.ok
      intro ks' h'
      rw [rDots_eq, if_neg (by rw [h']; exact h)]

theorem localAt_head {rec : Nat → List Kind → RO} (hr : ∀ p ks, LocalAt (rec p) ks) (ks : List Kind) :
    LocalAt (rHead (fun _ => False) rec) ks := by
  have key : ∀ (g' : List Kind → RO), (∀ ks', hd ks' = hd ks → rHead (fun _ => False) rec ks' = g' ks') →
      LocalAt g' ks → LocalAt (rHead (fun _ => False) rec) ks := fun g' h => LocalAt.branch h
  have okTail : hd ks ≠ .endOfInput → LocalAt (fun ks => RO.ok ks.tail) ks := fun h => LocalAt.tail h LocalAt.ok
  cases hk : hd ks
  case true_ | false_ | binary | octary | decimal | hexadec =>
    exact key _ (fun ks' h' => by unfold rHead; rw [h', hk]) (okTail (by rw [hk]; decide))
  case bang | minus =>
    exact key (fun ks => rec 6 ks.tail) (fun ks' h' => by unfold rHead; rw [h', hk])
      (LocalAt.tail (by rw [hk]; decide) (hr 6 _))
  case lpar =>
    exact key (fun ks => (rec 0 ks.tail).bind (rExpect .rpar)) (fun ks' h' => by unfold rHead; rw [h', hk])
      (LocalAt.bind (LocalAt.tail (by rw [hk]; decide) (hr 0 _)) fun r _ => localAt_expect (by decide) r)
  case doubleColon =>
    exact key (fun ks => rExpect .id ks.tail) (fun ks' h' => by unfold rHead; rw [h', hk])
      (LocalAt.tail (by rw [hk]; decide) (localAt_expect (by decide) _))
  case id =>
    refine LocalAt.step (fun ks => if hd ks = .lpar then
        ((rExpect .string ks.tail).bind (rExpect .rpar)).bind (rCheck fun _ => False) else rDots ks)
      (fun ks' h' => by unfold rHead; rw [h', hk]) (by rw [hk]; decide) ?_
    by_cases hl : hd ks.tail = .lpar
    · refine LocalAt.step (fun ks => ((rExpect .string ks).bind (rExpect .rpar)).bind (rCheck fun _ => False))
        (fun ks' h' => by rw [if_pos (h'.trans hl)]) (by rw [hl]; decide) ?_
      refine LocalAt.bind (LocalAt.bind (localAt_expect (by decide) _) fun r _ => localAt_expect (by decide) r) fun r _ => ?_
      refine LocalAt.branch (g' := RO.ok) (fun ks' _ => ?_) LocalAt.ok
      unfold rCheck
      rw [if_neg id]
    · exact LocalAt.branch (g' := rDots) (fun ks' h' => by rw [if_neg (by rw [h']; exact hl)])
        (localAt_dots _ _ (Nat.le_refl _))
  all_goals
    exact key _ (fun ks' h' => by unfold rHead; rw [h', hk]) LocalAt.fail

theorem localAt_loop {above : Nat → List Kind → RO} {ext : List Kind → RO} (ha : ∀ p ks, LocalAt (above p) ks)
    (he : ∀ ks, LocalAt ext ks) (p : Nat) (ks : List Kind) : LocalAt (rLoop above ext p) ks := by
  have key : ∀ (g' : List Kind → RO), (∀ ks', hd ks' = hd ks → rLoop above ext p ks' = g' ks') →
      LocalAt g' ks → LocalAt (rLoop above ext p) ks := fun g' h => LocalAt.branch h
  by_cases h1 : hd ks = .endOfInput ∨ hd ks = .rpar
  · exact key _ (fun ks' h' => by unfold rLoop; rw [h', if_pos h1]) LocalAt.ok
  by_cases h2 : ¬ isExtension (hd ks) = true
  · exact key _ (fun ks' h' => by unfold rLoop; rw [h', if_neg h1, if_neg h2]) LocalAt.fail
  rw [Classical.not_not] at h2
  by_cases h3 : p = tokenPrecedence (hd ks) ∧ tokenAssociativity (hd ks) = .none
  · exact key _ (fun ks' h' => by unfold rLoop; rw [h', if_neg h1, if_pos h2, if_pos h3]) LocalAt.fail
  by_cases h4 : p > tokenPrecedence (hd ks) ∨ (p = tokenPrecedence (hd ks) ∧ tokenAssociativity (hd ks) = .left)
  · exact key _ (fun ks' h' => by unfold rLoop; rw [h', if_neg h1, if_pos h2, if_neg h3, if_pos h4]) LocalAt.ok
  have hne : hd ks ≠ .endOfInput := fun h => h1 (.inl h)
  by_cases h5 : hd ks = .semicolon
  · refine LocalAt.step (fun ks => if hd ks = .endOfInput ∨ hd ks = .rpar then RO.ok ks else
        (above 1 ks).bind ext) (fun ks' h' => ?_) hne ?_
    · unfold rLoop
      rw [h', if_neg h1, if_pos h2, if_neg h3, if_neg h4, h5]
      simp only [true_and, reduceCtorEq, ite_false, tokenPrecedence]
    · by_cases h6 : hd ks.tail = .endOfInput ∨ hd ks.tail = .rpar
      · exact LocalAt.branch (g' := RO.ok) (fun ks' h' => by rw [h', if_pos h6]) LocalAt.ok
      · exact LocalAt.branch (g' := fun ks => (above 1 ks).bind ext)
          (fun ks' h' => by rw [h', if_neg h6]) (LocalAt.bind (ha _ _) fun r _ => he r)
  have h5' : ∀ x, ¬ (hd ks = .semicolon ∧ x) := fun _ h => h5 h.1
  by_cases h6 : hd ks = .doubleColon
  · refine LocalAt.step (fun ks => (rExpect .id ks).bind ext) (fun ks' h' => ?_) hne
      (LocalAt.bind (localAt_expect (by decide) _) fun r _ => he r)
    unfold rLoop
    rw [h', if_neg h1, if_pos h2, if_neg h3, if_neg h4, if_neg (h5' _), if_pos h6]
  · refine LocalAt.step (fun ks' => (above (tokenPrecedence (hd ks)) ks').bind ext) (fun ks' h' => ?_) hne
      (LocalAt.bind (ha _ _) fun r _ => he r)
    unfold rLoop
    rw [h', if_neg h1, if_pos h2, if_neg h3, if_neg h4, if_neg (h5' _), if_neg h6]

theorem r_local : ∀ f, (∀ p ks, LocalAt (rAbove (fun _ => False) f p) ks) ∧
    (∀ p ks, LocalAt (rExt (fun _ => False) f p) ks)
  | 0 => by
    constructor <;> intro p ks
    · exact ⟨(fun r h => by rw [rAbove] at h; cases h), (fun d r h => by rw [rAbove] at h; cases h)⟩
    · exact ⟨(fun r h => by rw [rExt] at h; cases h), (fun d r h => by rw [rExt] at h; cases h)⟩
  | f + 1 => by
    obtain ⟨ih1, ih2⟩ := r_local f
    constructor <;> intro p ks
    · exact LocalAt.branch (fun ks' _ => rAbove_succ _ f p ks') (LocalAt.bind (localAt_head ih1 ks) fun r _ => ih2 p r)
    · exact LocalAt.branch (fun ks' _ => rExt_succ _ f p ks') (localAt_loop ih1 (ih2 p) p ks)

end P4C
