import Verif.Basic
/-
Wire primitives: klickhouse/src/io.rs.
-/
namespace Klick

/-- `AsyncReadExt::read_exact` on `n` bytes (tokio; used throughout klickhouse/src/io.rs): take
exactly `n` bytes or fail with `UnexpectedEof`. -/
def readExact (n : Nat) : Rd Bytes := fun s =>
  if n ≤ s.length then .ok (s.take n, s.drop n) else .err .io

/-- Number denoted by a little-endian byte string. Used for `read_uN_le` (tokio), klickhouse/src/io.rs:9-51. -/
def unLe : Bytes → Nat
  | [] => 0
  | b :: bs => b.toNat + 256 * unLe bs

/-- Little-endian bytes of a number, `n` bytes. Used for `write_uN_le` (tokio), klickhouse/src/io.rs:53-84. -/
def le : Nat → Nat → Bytes
  | 0, _ => []
  | n + 1, x => BitVec.ofNat 8 x :: le n (x / 256)

/-- `read_u8`, klickhouse/src/io.rs:20-31. -/
def readU8 : Rd Byte := fun s =>
  match s with
  | b :: s' => .ok (b, s')
  | [] => .err .io

/-- `read_uN_le` / `read_iN_le` with `n` bytes, as a bit vector of width `w = 8 * n`, klickhouse/src/types/deserialize/sized.rs:24-79. -/
def readLe (n w : Nat) : Rd (BitVec w) :=
  readExact n >>= fun bs => pure (BitVec.ofNat w (unLe bs))

/-- `read_u64_le` used as a length, offset or flag word, klickhouse/src/types/deserialize/array.rs:44-71. -/
def readU64 : Rd Nat := readExact 8 >>= fun bs => pure (unLe bs)

/-- `write_u64_le` of a `usize as u64` (`usize` is taken to be 64 bits wide), klickhouse/src/types/serialize/array.rs:36-54. -/
def writeU64 (x : Nat) : Bytes := le 8 x

/-- `read_var_uint`, klickhouse/src/io.rs:20-31: the loop body for round `i`, with `fuel` rounds
left. The accumulator never exceeds 63 bits, so it is kept as a natural number. -/
def readVarUintLoop : Nat → Nat → Nat → Rd Nat
  | 0, _, out => pure out
  | fuel + 1, i, out => do
    let octet ← readU8
    let out := out ||| ((octet &&& 0x7F#8).toNat <<< (7 * i))
    if octet &&& 0x80#8 = 0#8 then pure out else readVarUintLoop fuel (i + 1) out

/-- `read_var_uint`, klickhouse/src/io.rs:20-31. -/
def readVarUint : Rd Nat := readVarUintLoop 9 0 0

/-- `write_var_uint`, klickhouse/src/io.rs:63-76: `fuel` rounds of the loop. -/
def writeVarUintLoop : Nat → Nat → Bytes
  | 0, _ => []
  | fuel + 1, value =>
    let byte := value &&& 0x7F
    let byte := if value > 0x7F then byte ||| 0x80 else byte
    BitVec.ofNat 8 byte ::
      (if value >>> 7 = 0 then [] else writeVarUintLoop fuel (value >>> 7))

/-- `write_var_uint`, klickhouse/src/io.rs:63-76, of a `u64`. -/
def writeVarUint (value : Nat) : Bytes := writeVarUintLoop 9 value

/-- `read_string`, klickhouse/src/io.rs:33-50. The order matters: the length check precedes the
allocation and the read. -/
def readString : Rd Bytes := do
  let len ← readVarUint
  if len > maxStringSize then Rd.fail .protocol
  else if len = 0 then pure []
  else readExact len

/-- UTF-8 bytes of a text (`str::as_bytes`). Rust strings are UTF-8; the encoding is Lean's own
`String.utf8EncodeChar`, klickhouse/src/io.rs:78-83. -/
def utf8Encode (s : Str) : Bytes := (s.flatMap String.utf8EncodeChar).map UInt8.toBitVec

/-- `String::from_utf8`: decode, or `none` when the bytes are not UTF-8. Lean's own decoder, klickhouse/src/io.rs:14-16. -/
def utf8Decode (b : Bytes) : Option Str :=
  (ByteArray.utf8Decode? ⟨(b.map UInt8.ofBitVec).toArray⟩).map Array.toList

/-- `read_utf8_string`, klickhouse/src/io.rs:14-16. -/
def readUtf8String : Rd Str := do
  let b ← readString
  match utf8Decode b with
  | some s => pure s
  | none => Rd.fail .utf8

/-- `write_string`, klickhouse/src/io.rs:78-83. -/
def writeString (value : Bytes) : Bytes := writeVarUint value.length ++ value

end Klick
