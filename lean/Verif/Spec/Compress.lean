import Verif.Compress
/-
Specification vocabulary for compressed frames (C42-C44).
-/
namespace Klick.Spec
open Klick

/-- The checksummed part of a frame: method byte 0x82, the size of header and body, the announced raw
size, the body. -/
def checksummed (rawLen : Nat) (body : Bytes) : Bytes :=
  0x82#8 :: (le 4 (body.length + 9) ++ le 4 rawLen ++ body)

/-- `bytes` is one intact frame holding `data`: 16 checksum octets that are the checksum of the rest,
the LZ4 method byte, a size between 9 and 2^30 that counts header and body, and a body that the
decompressor turns into `data`. -/
def IsFrame (lz : Lz4) (bytes data : Bytes) : Prop :=
  ∃ (body : Bytes) (rawLen : Nat),
    body.length + 9 ≤ 2 ^ 30 ∧ rawLen < 2 ^ 32 ∧
    bytes = le 8 ((lz.hash (checksummed rawLen body)).toNat / 2 ^ 64) ++
      le 8 ((lz.hash (checksummed rawLen body)).toNat % 2 ^ 64) ++ checksummed rawLen body ∧
    lz.decompress body (rawLen + 1) = some data ∧ data.length ≤ rawLen + 1

/-- A stream that starts with frames holding the given pieces, in order. -/
inductive Frames (lz : Lz4) : Bytes → List Bytes → Bytes → Prop where
  | nil (s : Bytes) : Frames lz s [] s
  | cons {f d s : Bytes} {ds : List Bytes} {rest : Bytes} (h : IsFrame lz f d) (hs : Frames lz s ds rest) :
    Frames lz (f ++ s) (d :: ds) rest

/-- The bytes a poll handed out. -/
def pollBytes : Poll → Bytes
  | .ready b => b
  | _ => []

end Klick.Spec
