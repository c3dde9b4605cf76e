import Verif.Model.Parser

/-
Model of `inet_pton(AF_INET6, ..)` as implemented by the GNU C library (resolv/inet_pton.c, version 2.26 and later), which is
not part of the repository: `Ipv6StringToByteString` (ast_constructors.cc:190-199) calls it. All other parts of the model take
`inet_pton` as a parameter (`Sys`); `glibc` is the value of this parameter on systems with this library.
-/

namespace P4C

/-- `hex_digit_value`. -/
def hexDigitValue (c : Char) : Option Nat :=
  if '0' ≤ c ∧ c ≤ '9' then some (c.toNat - 48)
  else if 'a' ≤ c ∧ c ≤ 'f' then some (c.toNat - 97 + 10)
  else if 'A' ≤ c ∧ c ≤ 'F' then some (c.toNat - 65 + 10)
  else none

/-- The local variables of `inet_pton4`: the bytes before the current one, the current one (`*tp`), `saw_digit`, `octets`. -/
structure Pton4 where
  done : Bytes := []
  cur : Nat := 0
  sawDigit : Bool := false
  octets : Nat := 0

/-- `inet_pton4`: the loop over the characters and the final test. -/
def inetPton4 : Str → Pton4 → Option Bytes
  | [], st => if st.octets < 4 then none else some (st.done ++ [UInt8.ofNat st.cur])
  | ch :: src, st =>
    if '0' ≤ ch ∧ ch ≤ '9' then
      let new := st.cur * 10 + (ch.toNat - 48)
      if st.sawDigit ∧ st.cur = 0 then none
      else if new > 255 then none
      else if st.sawDigit then inetPton4 src { st with cur := new }
      else if st.octets + 1 > 4 then none
      else inetPton4 src { st with cur := new, octets := st.octets + 1, sawDigit := true }
    else if ch = '.' ∧ st.sawDigit then
      if st.octets = 4 then none
      else inetPton4 src { st with done := st.done ++ [UInt8.ofNat st.cur], cur := 0, sawDigit := false }
    else none

/-- The local variables of `inet_pton6`: the bytes written (up to `tp`), `colonp` as an offset, `xdigits_seen`, `val`. -/
structure Pton6 where
  out : Bytes := []
  colonp : Option Nat := none
  xdigits : Nat := 0
  val : Nat := 0

/-- `*tp++ = val >> 8; *tp++ = val & 0xff`. -/
def pton6Put (st : Pton6) : Bytes := st.out ++ [UInt8.ofNat (st.val / 256), UInt8.ofNat (st.val % 256)]

/-- The loop of `inet_pton6`; the arguments are `src`, `curtok` and the other variables. -/
def pton6Loop : Str → Str → Pton6 → Option Pton6
  | [], _, st => some st
  | ch :: src, curtok, st =>
    match hexDigitValue ch with
    | some digit =>
      if st.xdigits = 4 then none
      else
        let val := st.val * 16 + digit
        if val > 0xffff then none
        else pton6Loop src curtok { st with val := val, xdigits := st.xdigits + 1 }
    | none =>
      if ch = ':' then
        if st.xdigits = 0 then
          if st.colonp.isSome then none
          else pton6Loop src src { st with colonp := some st.out.length }
        else if src = [] then none
        else if st.out.length + 2 > 16 then none
        else pton6Loop src src { st with out := pton6Put st, xdigits := 0, val := 0 }
      else if ch = '.' ∧ st.out.length + 4 ≤ 16 then
        match inetPton4 curtok {} with
        | some q => some { st with out := st.out ++ q, xdigits := 0 }
        | none => none
      else none

/-- The part of `inet_pton6` after the loop: the last group, and the expansion of `::`. -/
def pton6Finish (st : Pton6) : Option Bytes :=
  if st.xdigits > 0 ∧ st.out.length + 2 > 16 then none
  else
    let out := if st.xdigits > 0 then pton6Put st else st.out
    match st.colonp with
    | some p =>
      if out.length = 16 then none
      else some (out.take p ++ List.replicate (16 - out.length) 0 ++ out.drop p)
    | none => if out.length = 16 then some out else none

/-- `inet_pton6`. -/
def inetPton6 (s : Str) : Option Bytes :=
  match s with
  | [] => none
  | ':' :: src =>
    if src.head? = some ':' then (pton6Loop src src {}).bind pton6Finish else none
  | _ => (pton6Loop s s {}).bind pton6Finish

/-- A system with the GNU C library. -/
def glibc : Sys := ⟨inetPton6⟩

end P4C
