import Verif.RawRow
import Verif.TypeText
import Verif.Packets
import Verif.Lock
/-
Errors with the texts they carry, klickhouse/src/errors.rs. `Err` (Basic.lean) keeps of an error what later code of the read and write
paths looks at; here is all of it, for `Display` and `Clone`, because the lock decides by the text of an error.
-/
namespace Klick

/-- `KlickhouseError`, klickhouse/src/errors.rs:7-43, with every payload. A `std::io::Error` is what can be asked of it: its kind
(any number), its text and the code of the operating system, if there is one. A `FromUtf8Error` is its three parts. -/
inductive Fault where
  | missingRow | doubleFetch | outOfBounds
  | missingField (name : Str) | duplicateField (name : Str)
  | protocol (msg : Str) | typeParse (msg : Str) | deserialize (msg : Str) | serialize (msg : Str)
  | deserializeWithColumn (col msg : Str)
  | serverException (code : BitVec 32) (name message stackTrace : Str)
  | unexpectedType (t : Ty)
  | unexpectedTypeWithColumn (col : Str) (t : Ty)
  | io (kind : Nat) (text : Str) (os : Option (BitVec 32))
  | utf8 (bytes : Bytes) (upTo : Nat) (len : Option Nat)
deriving Repr

/-- `Display` of `FromUtf8Error` (the standard library's), klickhouse/src/errors.rs:42-43. -/
def utf8Text (upTo : Nat) : Option Nat → Str
  | some n => ch! "invalid utf-8 sequence of " ++ dec n ++ ch! " bytes from index " ++ dec upTo
  | none => ch! "incomplete utf-8 byte sequence from index " ++ dec upTo

/-- `Display` (and so `to_string`), klickhouse/src/errors.rs:9-42. -/
def Fault.display : Fault → Str
  | .missingRow => ch! "no rows received when expecting at least one row"
  | .doubleFetch => ch! "can't fetch the same column twice from RawRow"
  | .outOfBounds => ch! "column index was out of bounds or not present"
  | .missingField n => ch! "missing field " ++ n
  | .duplicateField n => ch! "duplicate field " ++ n ++ ch! " in struct"
  | .protocol m => ch! "protocol error: " ++ m
  | .typeParse m => ch! "type parse error: " ++ m
  | .deserialize m => ch! "deserialize error: " ++ m
  | .serialize m => ch! "serialize error: " ++ m
  | .deserializeWithColumn c m => ch! "deserialize error for column " ++ c ++ ch! ": " ++ m
  | .serverException c n m s => ch! "server exception: " ++ decInt c.toInt ++ ch! " " ++ n ++ ch! ": " ++ m ++ ch! "\n" ++ s
  | .unexpectedType t => ch! "unexpected type: " ++ t.display
  | .unexpectedTypeWithColumn c t => ch! "unexpected type for column " ++ c ++ ch! ": " ++ t.display
  | .io _ t _ => ch! "io error: " ++ t
  | .utf8 _ u l => ch! "utf-8 conversion error: " ++ utf8Text u l

/-- `Clone`, klickhouse/src/errors.rs:60-93: an I/O error is made anew from its kind and its text. -/
def Fault.clone : Fault → Fault
  | .io k t _ => .io k t none
  | f => f

/-- `with_column_name`, klickhouse/src/errors.rs:46-57. -/
def Fault.withColumn (name : Str) : Fault → Fault
  | .deserialize m => .deserializeWithColumn name m
  | .unexpectedType t => .unexpectedTypeWithColumn name t
  | f => f

/-- `ServerException::emit`, klickhouse/src/protocol.rs:120-129. -/
def ServerException.fault (e : ServerException) : Fault := .serverException e.code e.name e.message e.stackTrace

/-- What `Err` keeps of an error, klickhouse/src/errors.rs:7-43. -/
def Fault.toErr : Fault → Err
  | .missingRow => .missingRow
  | .doubleFetch => .doubleFetch
  | .outOfBounds => .outOfBounds
  | .missingField n => .missingField n
  | .duplicateField n => .duplicateField n
  | .protocol _ => .protocol
  | .typeParse _ => .typeParse
  | .deserialize m => .deserialize m
  | .serialize _ => .serialize
  | .deserializeWithColumn c m => .deserializeWithColumn c m
  | .serverException c n m s => .serverException c (utf8Encode n) (utf8Encode m) (utf8Encode s)
  | .unexpectedType t => .unexpectedType t
  | .unexpectedTypeWithColumn c t => .unexpectedTypeWithColumn c t
  | .io _ _ _ => .io
  | .utf8 _ _ _ => .utf8

end Klick
