/-
Basic vocabulary of the model: byte strings, status codes and outcomes.
-/

namespace P4C

/-- A C++ `std::string`: one `Char` per byte. -/
abbrev Str := List Char

/-- A protobuf `bytes` field (P4Runtime values). -/
abbrev Bytes := List UInt8

/-- `c!"abc"` is the `Str` with these characters, as an explicit list of character literals
(so that it reduces in the kernel). -/
macro:max "c!" s:str : term => do
  let mut r ← `(([] : Str))
  for c in s.getString.toList.reverse do
    r ← `(List.cons $(Lean.Syntax.mkCharLit c) $r)
  return r

/-- The `absl::StatusCode`s that occur (`gutils/status_builder.h`, `gutils/ret_check.h`). -/
inductive Code where
  | invalidArgument
  | internal
  | unimplemented
  | notFound
deriving DecidableEq, Repr

/-- Outcome of a C++ call returning `absl::StatusOr<α>`.

* `ok a`: an OK status with value `a`;
* `err c`: an error status with code `c` (the message is not modelled);
* `crash`: no return, because of undefined behaviour, an uncaught exception or an abort;
* `oof`: "out of fuel", an artefact of the structurally recursive model of the parser
  (proved unreachable there). -/
inductive Res (α : Type) where
  | ok (a : α)
  | err (c : Code)
  | crash
  | oof
deriving DecidableEq, Repr

namespace Res

/-- `ASSIGN_OR_RETURN` / `RETURN_IF_ERROR` (`gutils/status_macros.h`). -/
protected def bind {α β : Type} (x : Res α) (f : α → Res β) : Res β :=
  match x with
  | .ok a => f a
  | .err c => .err c
  | .crash => .crash
  | .oof => .oof

instance : Monad Res where
  pure := Res.ok
  bind := Res.bind

@[simp] theorem ok_bind {α β : Type} (a : α) (f : α → Res β) : (Res.ok a >>= f) = f a := rfl
@[simp] theorem err_bind {α β : Type} (c : Code) (f : α → Res β) : (Res.err c >>= f) = .err c := rfl
@[simp] theorem crash_bind {α β : Type} (f : α → Res β) : (Res.crash >>= f) = .crash := rfl
@[simp] theorem oof_bind {α β : Type} (f : α → Res β) : (Res.oof >>= f) = .oof := rfl
@[simp] theorem pure_eq {α : Type} (a : α) : (pure a : Res α) = .ok a := rfl

instance : LawfulMonad Res := LawfulMonad.mk'
  (id_map := by intro α x; cases x <;> rfl)
  (pure_bind := by intros; rfl)
  (bind_assoc := by intro α β γ x f g; cases x <;> rfl)

theorem bind_eq_ok {α β : Type} {x : Res α} {f : α → Res β} {b : β} :
    (x >>= f) = .ok b ↔ ∃ a, x = .ok a ∧ f a = .ok b := by
  cases x <;> simp

theorem map_eq_ok {α β : Type} {x : Res α} {f : α → β} {b : β} :
    (f <$> x) = .ok b ↔ ∃ a, x = .ok a ∧ f a = b := by
  cases x <;> simp [Functor.map, Res.bind]

end Res

/-- A map lookup (`flat_hash_map::find`) in an association list. -/
def lookup {κ α : Type} [DecidableEq κ] (k : κ) : List (κ × α) → Option α
  | [] => none
  | (k', a) :: m => if k' = k then some a else lookup k m

/-- `flat_hash_map::contains`. -/
def hasKey {κ α : Type} [DecidableEq κ] (k : κ) (m : List (κ × α)) : Bool := (lookup k m).isSome

/-- `flat_hash_map::insert`: `none` models `.second == false` (the key was present). -/
def insertNew {κ α : Type} [DecidableEq κ] (k : κ) (a : α) (m : List (κ × α)) :
    Option (List (κ × α)) :=
  if hasKey k m then none else some ((k, a) :: m)

/-- Decimal digit character of a number below 10. -/
def digitChar (n : Nat) : Char := Char.ofNat (48 + n)

/-- Decimal digits of a natural number, most significant first; `fuel` bounds their number. -/
def natDecF : Nat → Nat → Str
  | 0, _ => []
  | fuel + 1, n => if n < 10 then [digitChar n] else natDecF fuel (n / 10) ++ [digitChar (n % 10)]

/-- `std::to_string` of a non-negative integer. -/
def natDec (n : Nat) : Str := natDecF (n + 1) n

/-- `std::to_string`, `operator<<(int)`, `mpz_class::get_str(10)`. -/
def intDec (z : Int) : Str :=
  match z with
  | .ofNat n => natDec n
  | .negSucc n => '-' :: natDec (n + 1)

/-- The `c_str()`/`data()` view of a string: it ends at the first NUL. -/
def cstr (s : Str) : Str := s.takeWhile (· ≠ '\x00')

/-- C `isspace` in the "C" locale. -/
def isSpaceC (c : Char) : Bool := c = ' ' || (9 ≤ c.toNat && c.toNat ≤ 13)

/-- GMP's `digit_value` table for bases up to 36: value of a digit or letter. -/
def digitVal (c : Char) : Option Nat :=
  if 48 ≤ c.toNat ∧ c.toNat ≤ 57 then some (c.toNat - 48)
  else if 65 ≤ c.toNat ∧ c.toNat ≤ 90 then some (c.toNat - 55)
  else if 97 ≤ c.toNat ∧ c.toNat ≤ 122 then some (c.toNat - 87)
  else none

/-- A digit valid in the given base. -/
def digitIn (base : Nat) (c : Char) : Option Nat :=
  match digitVal c with
  | some d => if d < base then some d else none
  | none => none

/-- Accumulate digits; white space between digits is ignored (`mpz_set_str`). -/
def setStrDigits (base : Nat) : Nat → Str → Option Nat
  | acc, [] => some acc
  | acc, c :: cs =>
    if isSpaceC c then setStrDigits base acc cs
    else match digitIn base c with
      | some d => setStrDigits base (acc * base + d) cs
      | none => none

/-- `mpz_class::set_str(s, base)` for bases 2..36 (GMP `mpz/set_str.c`): leading white space, an
optional `-`, at least one digit, then digits and white space; reads up to the first NUL. `none` is
the return value -1. -/
def setStr (base : Nat) (s : Str) : Option Int :=
  let s := (cstr s).dropWhile isSpaceC
  match s with
  | '-' :: (c :: cs) =>
    match digitIn base c with
    | some _ => (setStrDigits base 0 (c :: cs)).map fun n => -(n : Int)
    | none => none
  | c :: cs =>
    match digitIn base c with
    | some _ => (setStrDigits base 0 (c :: cs)).map fun n => (n : Int)
    | none => none
  | [] => none

end P4C
