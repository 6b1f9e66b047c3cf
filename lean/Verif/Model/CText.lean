import Verif.Model.CApi

/-!
# The C interface: text, byte arrays and status codes

Source: `src/electionguard/convert.hpp` 267-293 (`dynamicCopy`), `include/electionguard/status.h`,
the `try` blocks of `src/electionguard/facades/*.cpp`.

Bytes are natural numbers below 256.  Memory is the list of bytes of one allocation; an access past
its end is undefined and gives `none`.  `malloc` may fail (`none`); the result is not checked, and
`strncpy` to a null pointer is undefined.
-/

namespace EG.CText

/-- Reading text at the start of an allocation: the bytes before the first zero. -/
def read (buf : List Nat) : Option (List Nat) :=
  if 0 ∈ buf then some (buf.takeWhile (· != 0)) else none

/-- `strncpy(dst, src, n)`: copies up to the first zero, fills up with zeros.  `dst` holds the `n`
bytes written. -/
def strncpy (src : List Nat) (n : Nat) : List Nat :=
  let t := (src.takeWhile (· != 0)).take n
  t ++ List.replicate (n - t.length) 0

/-- `dynamicCopy(const string &, size_t *)`, 267-277: the allocation and the size reported.
`c_str()` is the string and a zero. -/
def dynamicCopy (malloc : Bool) (data : List Nat) : Option (List Nat × Nat) :=
  if malloc then
    let size := data.length + 1
    some (strncpy (data ++ [0]) size, size)
  else none

/-- `dynamicCopy(vector<uint8_t> &, size_t *)`, 287-293; `new` throws rather than fail. -/
def dynamicCopyBytes (data : List Nat) : List Nat × Nat := (data, data.length)

/-- A getter of text, such as `eg_annotated_string_get_value` (facades/manifest.cpp 88-100), of an
object made by a constructor that takes `char *`, such as `eg_annotated_string_new` (47-61):
`string(in_value)` reads up to the zero. -/
def setGet (malloc : Bool) (buf : List Nat) : Option (List Nat) :=
  match read buf with
  | none => none
  | some s =>
    match dynamicCopy malloc s with
    | none => none
    | some (out, _) => read out

/-! ## Status codes -/

/-- `eg_electionguard_status_e`, status.h 10-23. -/
inductive Status
  | success | invalidArgument | outOfRange | ioError | badAccess | badAlloc | alreadyExists
  | runtimeError | unknown
  deriving DecidableEq, Repr

def Status.all : List Status :=
  [.success, .invalidArgument, .outOfRange, .ioError, .badAccess, .badAlloc, .alreadyExists,
    .runtimeError, .unknown]

/-- The value of an enumerator. -/
def Status.code : Status → Nat
  | .success => 0
  | .invalidArgument => 1
  | .outOfRange => 2
  | .ioError => 3
  | .badAccess => 4
  | .badAlloc => 5
  | .alreadyExists => 6
  | .runtimeError => 7
  | .unknown => 8

/-- `eg_electionguard_status_codes`, status.h 25-34. -/
def codes : List String :=
  ["ELECTIONGUARD_STATUS_SUCCESS",
  "ELECTIONGUARD_STATUS_ERROR_INVALID_ARGUMENT",
  "ELECTIONGUARD_STATUS_ERROR_OUT_OF_RANGE",
  "ELECTIONGUARD_STATUS_ERROR_IO_ERROR",
  "ELECTIONGUARD_STATUS_ERROR_BAD_ACCESS",
  "ELECTIONGUARD_STATUS_ERROR_BAD_ALLOC",
  "ELECTIONGUARD_STATUS_ERROR_ALREADY_EXISTS",
  "ELECTIONGUARD_STATUS_ERROR_RUNTIME_ERROR",
  "ELECTIONGUARD_STATUS_UNKNOWN"]

/-- `eg_electionguard_get_status`, status.h 36-42.  The `if` has no `return`: its body evaluates an
expression and drops it.  `none`: read outside of the array. -/
def getStatus (n : Nat) : Option String :=
  codes[n]?

/-- Classes of exceptions told apart by the `catch` clauses. -/
inductive Exn
  | invalidArgument
  /-- `runtime_error` and the classes derived from it -/
  | runtimeError
  /-- every other `std::exception` -/
  | other
  deriving DecidableEq, Repr

/-- Status returned when the library throws; `none`: the function has no status. -/
def caught : CApi.Catch → Exn → Option Status
  | .noexcept, _ => none
  | .escapes, _ => none
  | .value, _ => none
  | .badAlloc, _ => some .badAlloc
  | .runtimeError, _ => some .runtimeError
  | .byClass, .invalidArgument => some .invalidArgument
  | .byClass, .runtimeError => some .runtimeError
  | .byClass, .other => some .badAlloc

end EG.CText
