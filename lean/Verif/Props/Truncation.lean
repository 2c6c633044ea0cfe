import Verif.Props.Packets
/-
C62: a stream cut short is an I/O error, and decoding never depends on what follows.
-/
namespace Klick
open Spec Props

/-- C62, packets: when a byte string is one whole packet, each of its proper beginnings is reported as
an I/O error (never as a packet, never as a panic), plain or compressed. -/
theorem C62_packet_truncated (cfg : Cfg) (comp : Option Lz4) (revision : Nat) (p q : Bytes) (packet : ServerPacket)
    (h : readPacket cfg comp revision (p ++ q) = .ok (packet, [])) (hq : q ≠ []) :
    readPacket cfg comp revision p = .err .io :=
  (Steady.readPacket cfg comp revision).truncated h rfl hq

/-- C62, packets: the bytes that follow a packet do not influence how it is decoded, and are not touched. -/
theorem C62_packet_independent (cfg : Cfg) (comp : Option Lz4) (revision : Nat) (s t r : Bytes) (packet : ServerPacket)
    (h : readPacket cfg comp revision s = .ok (packet, r)) :
    readPacket cfg comp revision (s ++ t) = .ok (packet, r ++ t) := by
  rcases Steady.readPacket cfg comp revision s t with h1 | h1
  · rw [h] at h1; cases h1
  · rw [h1, h]; rfl

/-- C62, blocks. -/
theorem C62_block_truncated (cfg : Cfg) (revision : Nat) (p q : Bytes) (b : Block)
    (h : readBlock cfg revision (p ++ q) = .ok (b, [])) (hq : q ≠ []) : readBlock cfg revision p = .err .io :=
  (Steady.readBlock cfg revision).truncated h rfl hq

/-- C62: in particular every proper beginning of the bytes of a sendable block is an I/O error. -/
theorem C62_written_block_truncated (cfg : Cfg) (b : Block) (hb : BlockOk cfg b) (revision : Nat) (p q bytes : Bytes)
    (hw : b.write cfg revision = (bytes, .ok ())) (h : bytes = p ++ q) (hq : q ≠ []) :
    readBlock cfg revision p = .err .io := by
  obtain ⟨bytes', h1, h2⟩ := C14_block_roundtrip cfg b hb revision
  rw [hw] at h1
  cases h1
  obtain ⟨b', h3, _⟩ := h2 []
  rw [List.append_nil] at h3
  exact (Steady.readBlock cfg revision).truncated h3 h hq

/-- C62, columns of every type: a column cut short is an I/O error. -/
theorem C62_column_truncated (cfg : Cfg) (t : Ty) (n : Nat) (p q : Bytes) (vs : List Value)
    (h : deCol cfg t n (p ++ q) = .ok (vs, [])) (hq : q ≠ []) : deCol cfg t n p = .err .io :=
  (Steady.deCol cfg t n).truncated h rfl hq

/-- C62, columns: what follows a column is neither used nor touched. -/
theorem C62_column_independent (cfg : Cfg) (t : Ty) (n : Nat) (s u r : Bytes) (vs : List Value)
    (h : deCol cfg t n s = .ok (vs, r)) : deCol cfg t n (s ++ u) = .ok (vs, r ++ u) := by
  rcases Steady.deCol cfg t n s u with h1 | h1
  · rw [h] at h1; cases h1
  · rw [h1, h]; rfl

example := C62_column_truncated cfgDebug (.array .uint16) 2 [1, 0, 0, 0, 0, 0, 0, 0, 2, 0, 0, 0, 0, 0, 0, 0, 5] [0, 6, 0]
  [.array [.uint16 5], .array [.uint16 6]] rfl (by decide)
example : readPacket cfgDebug none 0 [3, 1, 2, 3] = .ok (.progress ⟨1, 2, 3, none, none⟩, []) := rfl
example := C62_packet_truncated cfgDebug none 0 [3, 1] [2, 3] (.progress ⟨1, 2, 3, none, none⟩) rfl (by decide)

end Klick
