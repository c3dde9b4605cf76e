import Verif.Model.EntryMessage

/-
Model of `gutils/status_builder.{h,cc}`, `gutils/status_macros.h` and `gutils/ret_check.{h,cc}`: how statuses are put
together and passed on. Payloads of statuses (which this code does not use) and the location of the builder (which is not
part of the status) are left out.
-/

namespace P4C

/-- Error codes (`absl::StatusCode` without `kOk`). -/
inductive AbslCode where
  | cancelled | unknown | invalidArgument | deadlineExceeded | notFound | alreadyExists | permissionDenied
  | resourceExhausted | failedPrecondition | aborted | outOfRange | unimplemented | internal | unavailable | dataLoss
  | unauthenticated
deriving DecidableEq, Repr

/-- `absl::Status`: OK, or a code and a message. -/
inductive Status where
  | ok
  | error (c : AbslCode) (msg : Str)
deriving DecidableEq, Repr

namespace Status

/-- `Annotate` and `JoinMessageToStatus` (status_builder.cc:29-41, 90-94). -/
def join (s : Status) (msg : Str) : Status :=
  if msg = [] then s
  else match s with
    | .ok => .ok
    | .error c m => .error c (if m = [] then msg else m ++ c!"; " ++ msg)

/-- `Status::ok`. -/
def isOk : Status → Bool
  | .ok => true
  | .error .. => false

end Status

/-- A `std::stringstream`: its contents and the position at which it writes. -/
structure StringStream where
  buf : Str := []
  pos : Nat := 0
deriving DecidableEq, Repr

namespace StringStream

/-- `std::stringstream(s)`: without `std::ios::ate`, writing starts at the beginning. -/
def ofStr (s : Str) : StringStream := ⟨s, 0⟩

/-- `operator<<`: what was at the position is overwritten. -/
def write (s : StringStream) (t : Str) : StringStream :=
  ⟨s.buf.take s.pos ++ t ++ s.buf.drop (s.pos + t.length), s.pos + t.length⟩

end StringStream

/-- `gutils::StatusBuilder` (status_builder.h:30-82). -/
structure StatusBuilder where
  status : Status
  stream : StringStream := {}
deriving DecidableEq, Repr

namespace StatusBuilder

/-- `StatusBuilder(code)` (status_builder.cc:58-59). -/
def ofCode (c : AbslCode) : StatusBuilder := ⟨.error c [], {}⟩

/-- The copy constructor and the copy assignment (status_builder.cc:55-56, 61-66). -/
def copy (b : StatusBuilder) : StatusBuilder := ⟨b.status, .ofStr b.stream.buf⟩

/-- `operator<<` (status_builder.h:84-93). -/
def append (b : StatusBuilder) (t : Str) : StatusBuilder :=
  if b.status.isOk then b else { b with stream := b.stream.write t }

/-- `CreateStatus` (status_builder.cc:81-88): the status, and the builder afterwards. -/
def createStatus (b : StatusBuilder) : Status × StatusBuilder :=
  (b.status.join b.stream.buf, ⟨.error .unknown [], {}⟩)

/-- The conversion to `absl::Status` of an lvalue (status_builder.cc:68-70); that of an rvalue is `createStatus`
(status_builder.cc:71-73). -/
def toStatus (b : StatusBuilder) : Status := b.copy.createStatus.1

end StatusBuilder

/-- `RETURN_IF_ERROR(expr) << texts` (status_macros.h:27-32, 82-105): the status returned, if any. -/
def returnIfError (s : Status) (texts : List Str) : Option Status :=
  if s.isOk then none else some (texts.foldl StatusBuilder.append ⟨s, {}⟩).createStatus.1

/-- A status or a value, `absl::StatusOr`. -/
inductive StatusOr (α : Type) where
  | value (a : α)
  | status (s : Status)

/-- `ASSIGN_OR_RETURN(a, expr, _ << texts); return rest(a)` (status_macros.h:37-67). -/
def assignOrReturn {α β : Type} (e : StatusOr α) (texts : List Str) (rest : α → StatusOr β) : StatusOr β :=
  match e with
  | .value a => rest a
  | .status s => .status (texts.foldl StatusBuilder.append ⟨s, {}⟩).toStatus

/-- `RetCheckFailSlowPath` with condition (ret_check.cc:21-32). -/
def retCheckFail (file line cond : Str) : StatusBuilder :=
  [c!"RET_CHECK failure (", file, c!":", line, c!") ", cond].foldl StatusBuilder.append (.ofCode .internal)

/-- `RET_CHECK(cond) << texts` (ret_check.h:46-48): the status returned, if any. -/
def retCheck (b : Bool) (file line cond : Str) (texts : List Str) : Option Status :=
  if b then none else some (texts.foldl StatusBuilder.append (retCheckFail file line cond)).createStatus.1

/-- `absl::StatusCodeToString`. -/
def AbslCode.name : AbslCode → Str
  | .cancelled => c!"CANCELLED"
  | .unknown => c!"UNKNOWN"
  | .invalidArgument => c!"INVALID_ARGUMENT"
  | .deadlineExceeded => c!"DEADLINE_EXCEEDED"
  | .notFound => c!"NOT_FOUND"
  | .alreadyExists => c!"ALREADY_EXISTS"
  | .permissionDenied => c!"PERMISSION_DENIED"
  | .resourceExhausted => c!"RESOURCE_EXHAUSTED"
  | .failedPrecondition => c!"FAILED_PRECONDITION"
  | .aborted => c!"ABORTED"
  | .outOfRange => c!"OUT_OF_RANGE"
  | .unimplemented => c!"UNIMPLEMENTED"
  | .internal => c!"INTERNAL"
  | .unavailable => c!"UNAVAILABLE"
  | .dataLoss => c!"DATA_LOSS"
  | .unauthenticated => c!"UNAUTHENTICATED"

/-- `StableStatusToString` (status.cc:10-13). -/
def Status.stable : Status → Str
  | .ok => c!"OK" ++ c!": " ++ [] ++ c!"\n"
  | .error c m => c.name ++ c!": " ++ m ++ c!"\n"

/-- The codes the library uses, as codes of statuses. -/
def Code.toAbsl : Code → AbslCode
  | .invalidArgument => .invalidArgument
  | .internal => .internal
  | .unimplemented => .unimplemented
  | .notFound => .notFound

/-- The `StatusOr` a function returned, if it returned. -/
def MRes.returned {α : Type} : MRes α → Option (StatusOr α)
  | .ok a => some (.value a)
  | .err c m => some (.status (.error c.toAbsl m))
  | .crash => none
  | .oof => none

end P4C
