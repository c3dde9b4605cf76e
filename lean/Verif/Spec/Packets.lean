import Verif.Spec.Accept
import Verif.Spec.Match
import Verif.Spec.Shuffle

/-
Entries that say the same although they are written differently (property C67): they match the same packets, have the same
priority, and invoke the same actions with the same arguments.
-/

namespace P4C.Spec

/-- The entry is one for a table with the keys `vs`, and the values of keys fit their widths and are canonical. -/
structure Proper (vs : List VarInfo) (entry : RtEntry) : Prop where
  fits : EntryFits vs entry
  values : ∀ ki ∈ vs, ∀ v, KeyValue entry ki v → ∃ W, OfWidth W ki.ty ∧ WellFormed W ki.ty v

/-- The entry matches the packet, which has the number `x id` where the key with this id is. -/
def Hits (vs : List VarInfo) (entry : RtEntry) (x : Nat → Nat) : Prop :=
  ∀ ki ∈ vs, ∃ W v, OfWidth W ki.ty ∧ KeyValue entry ki v ∧ x ki.id < 2 ^ W ∧ Matched W ki.ty v (x ki.id)

/-- Both invoke the same action with the same arguments, as numbers. -/
structure SameCall (a b : RtAction) : Prop where
  id : a.actionId = b.actionId
  once : (a.params.map Prod.fst).Nodup ∧ (b.params.map Prod.fst).Nodup
  args : ∀ id n, (∃ v, (id, v) ∈ a.params ∧ bytesNat v = n) ↔ ∃ v, (id, v) ∈ b.params ∧ bytesNat v = n

/-- Both invoke the same actions. -/
inductive SameCalls : Option TableAction → Option TableAction → Prop where
  | same (a : Option TableAction) : SameCalls a a
  | action {a b : RtAction} : SameCall a b → SameCalls (some (.action a)) (some (.action b))
  | set {as bs : List RtAction} : Each SameCall as bs → SameCalls (some (.actionSet as)) (some (.actionSet bs))

/-- Two proper entries of the table `d` that match the same packets. -/
structure SamePackets (d : TableDecl) (a b : RtEntry) : Prop where
  table : a.tableId = d.preamble.id ∧ b.tableId = d.preamble.id
  priority : a.priority = b.priority
  packets : ∃ vs, Each KeyDecl d.matchFields vs ∧ Proper vs a ∧ Proper vs b ∧ ∀ x, Hits vs a x ↔ Hits vs b x

end P4C.Spec
