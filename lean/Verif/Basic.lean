/-
Basic vocabulary of the model: bytes, text, types, errors, outcomes, readers.
-/
namespace Klick

/-- One octet. -/
abbrev Byte := BitVec 8
/-- A byte string (`Vec<u8>`, `&[u8]`, the unread part of a stream). -/
abbrev Bytes := List Byte
/-- Rust text (`String`, `&str`) as its sequence of `char`s. -/
abbrev Str := List Char

/-- `MAX_STRING_SIZE`, klickhouse/src/protocol.rs:28 (`1 << 30`). -/
def maxStringSize : Nat := 2 ^ 30

/-- `chrono_tz::Tz`. The time-zone database is external: a zone is identified with its name (its
`Display` output); which names exist is `Cfg.isTz`, klickhouse/src/types/mod.rs:25-83. -/
abbrev Tz := Str

/-- `chrono_tz::UTC`, klickhouse/src/types/mod.rs:404. -/
def tzUTC : Tz := ['U', 'T', 'C']

/-- The compile-time switches that change behaviour, and the external tables (time zones, Unicode
letters and digits beyond ASCII). -/
structure Cfg where
  /-- built with arithmetic overflow checks (debug profile) or not (release profile) -/
  overflowChecks : Bool
  /-- cargo feature `bfloat16`; `is_bfloat16_enabled`, klickhouse/src/values/bfloat16.rs:112-115 -/
  bf16 : Bool
  /-- `Tz::from_str` succeeds exactly on these names (external crate `chrono_tz`) -/
  isTz : Str → Bool
  /-- `char::is_alphabetic` on characters beyond ASCII (Unicode tables of the standard library) -/
  isAlphaX : Char → Bool
  /-- `char::is_numeric` on characters beyond ASCII -/
  isNumX : Char → Bool

/-- `Type`, klickhouse/src/types/mod.rs:25-83. -/
inductive Ty where
  | int8 | int16 | int32 | int64 | int128 | int256
  | uint8 | uint16 | uint32 | uint64 | uint128 | uint256
  | float32 | float64 | bfloat16
  | decimal32 (s : Nat) | decimal64 (s : Nat) | decimal128 (s : Nat) | decimal256 (s : Nat)
  | string | fixedString (n : Nat)
  | uuid
  | date | dateTime (tz : Tz) | dateTime64 (p : Nat) (tz : Tz)
  | ipv4 | ipv6
  | point | ring | polygon | multiPolygon
  | enum8 (items : List (Str × BitVec 8)) | enum16 (items : List (Str × BitVec 16))
  | lowCardinality (t : Ty)
  | array (t : Ty)
  | tuple (ts : List Ty)
  | nullable (t : Ty)
  | map (k v : Ty)
deriving Repr

/-- `KlickhouseError`, klickhouse/src/errors.rs:7-43. Message texts are kept only where a later
function moves them around (`with_column_name`); I/O errors carry no payload. -/
inductive Err where
  | missingRow | doubleFetch | outOfBounds
  | missingField (name : Str) | duplicateField (name : Str)
  | protocol | typeParse
  | deserialize (msg : Str)
  | serialize
  | deserializeWithColumn (col : Str) (msg : Str)
  | serverException (code : BitVec 32) (name message stackTrace : Bytes)
  | unexpectedType (t : Ty)
  | unexpectedTypeWithColumn (col : Str) (t : Ty)
  | io
  | utf8
deriving Repr

/-- Outcome of a computation: a value, an error, or a panic, klickhouse/src/errors.rs:96. -/
inductive Res (α : Type) where
  | ok (a : α)
  | err (e : Err)
  | panic
deriving Repr

namespace Res
variable {α β γ : Type}

/-- Sequencing (`?` on results; panics propagate). -/
protected def bind : Res α → (α → Res β) → Res β
  | ok a, f => f a
  | err e, _ => err e
  | panic, _ => panic

instance : Monad Res where
  pure := ok
  bind := Res.bind

@[simp] theorem bind_ok (a : α) (f : α → Res β) : (Res.ok a >>= f) = f a := rfl
@[simp] theorem bind_err (e : Err) (f : α → Res β) : ((Res.err e : Res α) >>= f) = Res.err e := rfl
@[simp] theorem bind_panic (f : α → Res β) : ((Res.panic : Res α) >>= f) = Res.panic := rfl
@[simp] theorem pure_eq (a : α) : (pure a : Res α) = Res.ok a := rfl

/-- Did the computation panic? -/
def isPanic : Res α → Bool
  | panic => true
  | _ => false

/-- Did the computation succeed? -/
def isOk : Res α → Bool
  | ok _ => true
  | _ => false

/-- Apply a fallible function along a list, left to right, stopping at the first failure. -/
def mapL (f : α → Res β) : List α → Res (List β)
  | [] => .ok []
  | x :: xs => (f x) >>= fun y => mapL f xs >>= fun ys => .ok (y :: ys)

theorem bind_eq_ok {x : Res α} {f : α → Res β} {b : β} :
    (x >>= f) = .ok b ↔ ∃ a, x = .ok a ∧ f a = .ok b := by
  cases x <;> simp

theorem bind_eq_panic {x : Res α} {f : α → Res β} :
    (x >>= f) = .panic ↔ x = .panic ∨ ∃ a, x = .ok a ∧ f a = .panic := by
  cases x <;> simp

end Res

/-- A reader consumes a prefix of the remaining bytes of a stream. The stream is finite: running
out of bytes is the `UnexpectedEof` I/O error, klickhouse/src/io.rs:9-51. -/
def Rd (α : Type) := Bytes → Res (α × Bytes)

namespace Rd
variable {α β : Type}

/-- Sequencing of readers. -/
protected def bind (x : Rd α) (f : α → Rd β) : Rd β := fun s =>
  match x s with
  | .ok (a, s') => f a s'
  | .err e => .err e
  | .panic => .panic

instance : Monad Rd where
  pure a := fun s => .ok (a, s)
  bind := Rd.bind

/-- Fail with an error. -/
def fail (e : Err) : Rd α := fun _ => .err e
/-- Panic. -/
def panic : Rd α := fun _ => .panic
/-- Use the outcome of a pure computation. -/
def lift (r : Res α) : Rd α := fun s =>
  match r with
  | .ok a => .ok (a, s)
  | .err e => .err e
  | .panic => .panic

theorem bind_apply (x : Rd α) (f : α → Rd β) (s : Bytes) :
    (x >>= f) s = (x s >>= fun p => f p.1 p.2) := by
  show Rd.bind x f s = _
  unfold Rd.bind
  cases x s <;> rfl

theorem bind_run_ok {x : Rd α} {f : α → Rd β} {s s' : Bytes} {a : α} (h : x s = .ok (a, s')) :
    (x >>= f) s = f a s' := by
  rw [bind_apply, h]; rfl

theorem bind_run_err {x : Rd α} {f : α → Rd β} {s : Bytes} {e : Err} (h : x s = .err e) :
    (x >>= f) s = .err e := by
  rw [bind_apply, h]; rfl

theorem bind_run_panic {x : Rd α} {f : α → Rd β} {s : Bytes} (h : x s = .panic) :
    (x >>= f) s = .panic := by
  rw [bind_apply, h]; rfl

@[simp] theorem pure_apply (a : α) (s : Bytes) : (pure a : Rd α) s = .ok (a, s) := rfl
@[simp] theorem fail_apply (e : Err) (s : Bytes) : (fail e : Rd α) s = .err e := rfl
@[simp] theorem panic_apply (s : Bytes) : (panic : Rd α) s = .panic := rfl

theorem bind_eq_ok {x : Rd α} {f : α → Rd β} {s s'' : Bytes} {b : β} :
    (x >>= f) s = .ok (b, s'') ↔ ∃ a s', x s = .ok (a, s') ∧ f a s' = .ok (b, s'') := by
  rw [bind_apply, Res.bind_eq_ok]
  constructor
  · rintro ⟨⟨a, s'⟩, h1, h2⟩; exact ⟨a, s', h1, h2⟩
  · rintro ⟨a, s', h1, h2⟩; exact ⟨(a, s'), h1, h2⟩

theorem bind_eq_panic {x : Rd α} {f : α → Rd β} {s : Bytes} :
    (x >>= f) s = .panic ↔ x s = .panic ∨ ∃ a s', x s = .ok (a, s') ∧ f a s' = .panic := by
  rw [bind_apply, Res.bind_eq_panic]
  constructor
  · rintro (h | ⟨⟨a, s'⟩, h1, h2⟩)
    · exact .inl h
    · exact .inr ⟨a, s', h1, h2⟩
  · rintro (h | ⟨a, s', h1, h2⟩)
    · exact .inl h
    · exact .inr ⟨(a, s'), h1, h2⟩

/-- Read `n` items one after the other (`for _ in 0..n { out.push(..) }`). -/
def rep (n : Nat) (x : Rd α) : Rd (List α) :=
  match n with
  | 0 => pure []
  | n + 1 => x >>= fun a => rep n x >>= fun as => pure (a :: as)

end Rd
end Klick
