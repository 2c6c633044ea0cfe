import Verif.IoLemmas
/-
Properties C01, C02, C03: wire primitives.
-/
namespace Klick.Props
open Klick

/-! ## C01 variable-length integers round-trip -/

/-- C01 is false of the code for values of 2^63 and above: the writer stops after nine groups of
seven bits. There is a `u64` which is never read back, whatever follows it. -/
theorem C01_varuint_roundtrip_false :
    ¬ ∀ (v : Nat), v < 2 ^ 64 → ∀ rest, readVarUint (writeVarUint v ++ rest) = .ok (v, rest) := by
  intro h
  have h1 := h (2 ^ 63) (by decide) []
  rw [readVarUint_write_mod] at h1
  simp at h1

/-- What is missing for the full C01: exactly the values from 2^63 on. Every value below 2^63
round-trips and leaves the following bytes untouched. -/
theorem C01_varuint_roundtrip_partial (v : Nat) (hv : v < 2 ^ 63) (rest : Bytes) :
    readVarUint (writeVarUint v ++ rest) = .ok (v, rest) :=
  readVarUint_write v hv rest

/-- The failing region described exactly: over all of `u64` the number read back is the number
written with its top bit dropped, the stream being left in the right place. -/
theorem C01_varuint_exact (v : Nat) (_hv : v < 2 ^ 64) (rest : Bytes) :
    readVarUint (writeVarUint v ++ rest) = .ok (v % 2 ^ 63, rest) :=
  readVarUint_write_mod v rest

example : readVarUint (writeVarUint 300 ++ [7#8]) = .ok (300, [7#8]) :=
  C01_varuint_roundtrip_partial 300 (by decide) _
example : writeVarUint 300 = [0xAC#8, 0x02#8] := by decide

/-! ## C02 reading is total and bounded -/

/-- C02: on every stream the reader either returns after consuming between one and nine bytes, or
fails with an I/O error, which happens only when fewer than nine bytes are left and none of them
ends the number; it never panics. -/
theorem C02_varuint_total (s : Bytes) :
    (∃ n c rest, readVarUint s = .ok (n, rest) ∧ s = c ++ rest ∧ 1 ≤ c.length ∧ c.length ≤ 9) ∨
      (readVarUint s = .err .io ∧ s.length < 9 ∧ ∀ b ∈ s, 128 ≤ b.toNat) := by
  unfold readVarUint
  rcases readVarUintLoop_spec 9 0 0 s with ⟨n, ds, h1, c, h2, h3, h4⟩ | h
  · exact .inl ⟨n, c, ds, h1, h2, h4 (by decide), h3⟩
  · exact .inr h

/-- C02, writer side: at most nine bytes and at least one. -/
theorem C02_varuint_write_bounded (v : Nat) :
    1 ≤ (writeVarUint v).length ∧ (writeVarUint v).length ≤ 9 := by
  refine ⟨?_, writeVarUintLoop_length_le 9 v⟩
  simp [writeVarUint, writeVarUintLoop]

example : readVarUint [0x80#8, 0x80#8] = .err .io := rfl
example : readVarUint (List.replicate 9 0xFF#8 ++ [1#8]) = .ok (2 ^ 63 - 1, [1#8]) := rfl

/-! ## C03 strings -/

/-- C03: every byte string of at most 2^30 bytes is read back exactly, leaving the rest. -/
theorem C03_string_roundtrip (v rest : Bytes) (hv : v.length ≤ 2 ^ 30) :
    readString (writeString v ++ rest) = .ok (v, rest) :=
  readString_write v rest (by simpa [maxStringSize] using hv)

/-- C03: a length prefix above 2^30 is refused with a protocol error whatever follows it: the
outcome does not depend on (so nothing was read from) the bytes after the prefix. -/
theorem C03_string_oversize_refused (n : Nat) (h : 2 ^ 30 < n) (h' : n < 2 ^ 63) (rest : Bytes) :
    readString (writeVarUint n ++ rest) = .err .protocol := by
  unfold readString
  rw [Rd.bind_run_ok (readVarUint_write n h' rest), if_pos (by simpa [maxStringSize] using h)]
  rfl

/-- C03: whatever length prefix the other side sends, in however many bytes, a length above 2^30 is
refused before anything is read or allocated. -/
theorem C03_oversize_any (s rest : Bytes) (n : Nat) (h : readVarUint s = .ok (n, rest))
    (hn : 2 ^ 30 < n) : readString s = .err .protocol := by
  unfold readString
  rw [Rd.bind_run_ok h, if_pos (by simpa [maxStringSize] using hn)]
  rfl

/-- C03: reading a string never panics. -/
theorem C03_string_never_panics (s : Bytes) : readString s ≠ .panic := readString_ne_panic s

/-- C03: text round-trips, for every Unicode text of at most 2^30 bytes. -/
theorem C03_text_roundtrip (t : Str) (rest : Bytes) (h : (utf8Encode t).length ≤ 2 ^ 30) :
    readUtf8String (writeString (utf8Encode t) ++ rest) = .ok (t, rest) :=
  readUtf8String_write t rest (by simpa [maxStringSize] using h)

/-- C03: reading text out of a well-formed string fails exactly when the bytes are not the UTF-8
encoding of any text. -/
theorem C03_text_fails_iff_invalid (v rest : Bytes) (hv : v.length ≤ 2 ^ 30) :
    readUtf8String (writeString v ++ rest) = .err .utf8 ↔ ¬ ∃ t : Str, utf8Encode t = v := by
  unfold readUtf8String
  rw [Rd.bind_run_ok (C03_string_roundtrip v rest hv)]
  constructor
  · rintro h ⟨t, rfl⟩
    rw [utf8Decode_encode] at h
    cases h
  · intro h
    cases hd : utf8Decode v with
    | none => rfl
    | some s => exact absurd ⟨s, (utf8Decode_eq_some hd).symm⟩ h

example : readString (writeString [1#8, 2#8] ++ [9#8]) = .ok ([1#8, 2#8], [9#8]) :=
  C03_string_roundtrip _ _ (by decide)
example : readString (writeVarUint (2 ^ 30 + 1) ++ [9#8]) = .err .protocol :=
  C03_string_oversize_refused _ (by decide) (by decide) _

end Klick.Props
