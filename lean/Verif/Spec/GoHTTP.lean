import Verif.Model.GoHTTP

/-!
# Vocabulary of C101
-/

namespace Baron.GoHTTP

open Baron.HTTP (look)
open Baron.Runtime (Header MD Err canonical)

variable {M : Type}

/-- The string a context has under a key, if the latest value under it is a string. -/
def stringOf (c : Ctx) (x : Str) : Option Str := (look c x).bind id

/-- The values under a key. -/
def vals (m : MD) (x : Str) : List Str := ((look m x).bind id).getD []

/-- A value of the type `httpError`, made of an error, a status and headers. -/
def httpErr (e : Err) (c : Nat) (h : Header) : Val M :=
  .struct (chars% "httpError") [(chars% "error", .err e), (chars% "statusCode", .num c), (chars% "headers", .header h)]

/-- The value `v` is the error `e`: it is `e` itself, or an `httpError`, which has the message of the error in it, a status and headers, and does
not marshal itself. -/
inductive Represents : Val M → Err → Prop where
  | err (e : Err) : Represents (.err e) e
  | http (e : Err) (c : Nat) (h : Header) : Represents (httpErr e c h) ⟨e.msg, none, some h, some c⟩

/-- The options of protojson with which responses are written. -/
def writeOptions : List (Str × Bool) :=
  [(chars% "AllowPartial", true), (chars% "UseProtoNames", true), (chars% "UseEnumNumbers", true), (chars% "EmitUnpopulated", true)]

/-- The options of protojson with which responses are read. -/
def readOptions : List (Str × Bool) := [(chars% "AllowPartial", true), (chars% "DiscardUnknown", true)]

/-- Metadata as gRPC delivers it: names are in lower case and distinct, no list of values is empty. -/
structure WireValues (m : MD) : Prop where
  valid : ∀ e ∈ m, e.1.all Runtime.tokenChar = true ∧ toLower e.1 = e.1 ∧ e.2 ≠ some []
  nodup : (m.map (·.1)).Nodup

end Baron.GoHTTP
