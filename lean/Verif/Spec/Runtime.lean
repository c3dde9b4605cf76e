import Verif.Spec.Solve

/-
Specification of the well-formed entries of a table (property C100), after the P4Runtime specification, sections 8.4 (byte
strings), 9.1 (priorities) and 9.1.1 (matches). It refers to the declaration of the table only.
-/

namespace P4C.Spec

/-- The byte string is the shortest one for a number of `w` bits. -/
def BitString (w : Int) (bs : Bytes) : Prop := CanonicalBytes bs ∧ bytesNat bs < 2 ^ w.toNat

/-- The matches that entries may have for a match field. Wildcards, which are expressed by omitting the match, are not among
them. -/
inductive RuntimeMatch : MatchField → MatchVal → Prop where
  | exact (id : Nat) (n : Str) {w : Int} {v : Bytes} : BitString w v → RuntimeMatch ⟨id, n, w, .matchType .exact⟩ (.exact v)
  | optional (id : Nat) (n : Str) {w : Int} {v : Bytes} : BitString w v →
      RuntimeMatch ⟨id, n, w, .matchType .optional⟩ (.optional v)
  | ternary (id : Nat) (n : Str) {w : Int} {v m : Bytes} : BitString w v → BitString w m → bytesNat m ≠ 0 →
      bytesNat v &&& bytesNat m = bytesNat v → RuntimeMatch ⟨id, n, w, .matchType .ternary⟩ (.ternary v m)
  | lpm (id : Nat) (n : Str) {w p : Int} {v : Bytes} : BitString w v → 0 < p → p ≤ w →
      2 ^ (w - p).toNat ∣ bytesNat v → RuntimeMatch ⟨id, n, w, .matchType .lpm⟩ (.lpm v p)
  | range (id : Nat) (n : Str) {w : Int} {lo hi : Bytes} : BitString w lo → BitString w hi → bytesNat lo ≤ bytesNat hi →
      ¬ (bytesNat lo = 0 ∧ bytesNat hi + 1 = 2 ^ w.toNat) → RuntimeMatch ⟨id, n, w, .matchType .range⟩ (.range lo hi)

/-- Entries need a priority if the table has a field of one of these kinds. -/
def NeedsPriority (d : TableDecl) : Prop :=
  ∃ f ∈ d.matchFields, f.kind = .matchType .ternary ∨ f.kind = .matchType .range ∨ f.kind = .matchType .optional

/-- The entry is a well-formed entry of the table, apart from its action. -/
structure RuntimeEntry (d : TableDecl) (entry : RtEntry) : Prop where
  table : entry.tableId = d.preamble.id
  fields : ∀ m ∈ entry.matches_, ∃ f ∈ d.matchFields, f.id = m.fieldId ∧ RuntimeMatch f m.val
  once : (entry.matches_.map FieldMatch.fieldId).Nodup
  exact : ∀ f ∈ d.matchFields, f.kind = .matchType .exact → ∃ m ∈ entry.matches_, m.fieldId = f.id
  priority : (NeedsPriority d ∧ 0 < entry.priority ∧ entry.priority < 2 ^ 31) ∨ (¬ NeedsPriority d ∧ entry.priority = 0)

end P4C.Spec
