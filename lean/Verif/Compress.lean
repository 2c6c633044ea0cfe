import Verif.Block
/-
Compressed frames: klickhouse/src/compression.rs, klickhouse/src/internal_client_out.rs:167-184.
-/
namespace Klick

/-- The external compressor and checksum: `LZ4_compress_default` (`none` when it returns no bytes),
`LZ4_decompress_safe` into a buffer of the given capacity (`none` when it reports malformed input;
its result never exceeds the capacity, which the code checks after the fact), `cityhash_102_128`, klickhouse/src/compression.rs:16-64. -/
structure Lz4 where
  compress : Bytes → Option Bytes
  decompress : Bytes → Nat → Option Bytes
  hash : Bytes → BitVec 128

/-- `CompressionMethod::LZ4.byte()`, klickhouse/src/protocol.rs:189-196. -/
def lz4Byte : Byte := 0x82#8

/-- `MAX_COMPRESSION_SIZE`, klickhouse/src/internal_client_in.rs:21. -/
def maxCompressionSize : Nat := 0x40000000

/-- `compress_block`, klickhouse/src/compression.rs:16-40: the compressed bytes and the raw length.
The lengths are passed to LZ4 as `i32`; raw blocks of 2 GiB or more are not modelled. -/
def compressBlock (cfg : Cfg) (lz : Lz4) (b : Block) (revision : Nat) : Res (Bytes × Nat) :=
  (b.write cfg revision).2 >>= fun _ =>
    match lz.compress (b.write cfg revision).1 with
    | some c => .ok (c, (b.write cfg revision).1.length)
    | none => .err .protocol

/-- The bytes of one frame, klickhouse/src/internal_client_out.rs:167-184: checksum (high half then
low half, each little-endian), method, size of header and body, raw size, body. -/
def frame (lz : Lz4) (method : Byte) (c : Bytes) (rawLen : Nat) : Bytes :=
  let out := method :: (le 4 (c.length + 9) ++ le 4 rawLen ++ c)
  le 8 (lz.hash out >>> 64).toNat ++ le 8 (lz.hash out).toNat ++ out

/-- `compress_data`, klickhouse/src/internal_client_out.rs:167-184. -/
def compressData (cfg : Cfg) (lz : Lz4) (b : Block) (revision : Nat) : Res Bytes :=
  compressBlock cfg lz b revision >>= fun p => .ok (frame lz lz4Byte p.1 p.2)

/-- `decompress_block`, klickhouse/src/compression.rs:42-64: the buffer holds one byte more than the
announced size (`Vec::with_capacity` is taken to allocate exactly what is asked). -/
def decompressBlock (lz : Lz4) (data : Bytes) (size : Nat) : Res Bytes :=
  match lz.decompress data (size + 1) with
  | none => .err .protocol
  | some out => if out.length > size + 1 then .panic else .ok out

/-- `read_compressed_blob`, klickhouse/src/compression.rs:66-106. -/
def readFrame (lz : Lz4) (method : Byte) : Rd Bytes :=
  readLe 8 64 >>= fun hi => readLe 8 64 >>= fun lo =>
  let checksum : BitVec 128 := (hi.setWidth 128 <<< 64) ||| lo.setWidth 128
  readU8 >>= fun typeByte =>
  if typeByte ≠ method then Rd.fail .protocol
  else readLe 4 32 >>= fun size =>
    if size.toNat > maxCompressionSize then Rd.fail .protocol
    else if size.toNat < 9 then Rd.fail .protocol
    else readLe 4 32 >>= fun rawSize =>
      readExact (size.toNat - 9) >>= fun body =>
      let compressed := typeByte :: (le 4 size.toNat ++ le 4 rawSize.toNat ++ body)
      if lz.hash compressed ≠ checksum then Rd.fail .protocol
      else Rd.lift (decompressBlock lz body rawSize.toNat)

/-! ### the streaming reader -/

/-- `DecompressionReader`, klickhouse/src/compression.rs:111-117. `inner` is the transport while the
reader owns it; while a frame is being read the transport is inside `future`. The transport is
represented by the bytes it has yet to deliver. -/
structure DReader where
  inner : Option Bytes
  decompressed : Bytes
  position : Nat
  future : Option Bytes

/-- `DecompressionReader::new`, klickhouse/src/compression.rs:120-128. -/
def DReader.new (s : Bytes) : DReader := ⟨some s, [], 0, none⟩

/-- Outcome of a poll, klickhouse/src/compression.rs:157-195. -/
inductive Poll where
  | pending
  | ready (bytes : Bytes)
  | error
deriving DecidableEq, Repr

/-- `run_decompression` when a frame is being read and has fully arrived,
klickhouse/src/compression.rs:134-152: `true` when it succeeded. Every failure is reported as an I/O
error, and the transport is lost with the future. -/
def DReader.finish (lz : Lz4) (d : DReader) (s : Bytes) : DReader × Bool :=
  match readFrame lz lz4Byte s with
  | .ok (value, s') => (⟨some s', value, 0, none⟩, true)
  | _ => ({ d with future := none }, false)

/-- The rest of `poll_read` once no frame is being read, klickhouse/src/compression.rs:177-194, with a
buffer of `n > 0` free bytes; `k` is the number of further frames that have arrived by now (frames
arriving later leave the poll pending). -/
def DReader.serve (lz : Lz4) (n : Nat) : Nat → DReader → Poll × DReader
  | k, d =>
    match d.inner with
    | none => (.error, d)
    | some s =>
      if d.position ≥ d.decompressed.length then
        match k with
        | 0 => (.pending, { d with inner := none, future := some s })
        | k + 1 =>
          match DReader.finish lz { d with inner := none, future := some s } s with
          | (d, true) => DReader.serve lz n k d
          | (d, false) => (.error, d)
      else
        let length := min (d.decompressed.length - d.position) n
        (.ready ((d.decompressed.drop d.position).take length), { d with position := d.position + length })

/-- `poll_read`, klickhouse/src/compression.rs:157-195, with a buffer of `n` free bytes, when `k` of
the frames not yet taken from the transport have fully arrived. -/
def DReader.poll (lz : Lz4) (n k : Nat) (d : DReader) : Poll × DReader :=
  if n = 0 then (.ready [], d)
  else match d.future with
    | none => DReader.serve lz n k d
    | some s =>
      match k with
      | 0 => (.pending, d)
      | k + 1 =>
        match DReader.finish lz d s with
        | (d, true) => DReader.serve lz n k d
        | (d, false) => (.error, d)

/-- A sequence of polls, each with its buffer size and the number of frames arrived in time, klickhouse/src/compression.rs:157-195. -/
def DReader.polls (lz : Lz4) : List (Nat × Nat) → DReader → List Poll × DReader
  | [], d => ([], d)
  | (n, k) :: qs, d =>
    let r := d.poll lz n k
    let r' := DReader.polls lz qs r.2
    (r.1 :: r'.1, r'.2)

/-- Running a reader through a fresh `DecompressionReader`, klickhouse/src/internal_client_in.rs:52-60:
frames are taken from the transport one by one, only when the bytes decompressed so far do not
suffice; bytes of the last frame left over are dropped with the `DecompressionReader`. A failing frame
is an I/O error. This is the big-step view of `DReader` (C44 is its justification); running out of
bytes is the only cause of an I/O error in the readers. -/
def framedLoop {α : Type} (lz : Lz4) (x : Rd α) : Nat → Bytes → Rd α
  | 0, _ => Rd.fail .io
  | fuel + 1, acc => fun s =>
    match x acc with
    | .ok (a, _) => .ok (a, s)
    | .panic => .panic
    | .err .io =>
      match readFrame lz lz4Byte s with
      | .ok (d, s') => framedLoop lz x fuel (acc ++ d) s'
      | .err _ => .err .io
      | .panic => .panic
    | .err e => .err e

/-- `decompress_data`, klickhouse/src/internal_client_in.rs:52-60. Every frame takes at least 25 bytes,
so the fuel suffices. -/
def framed {α : Type} (lz : Lz4) (x : Rd α) : Rd α := fun s => framedLoop lz x (s.length + 1) [] s

end Klick
