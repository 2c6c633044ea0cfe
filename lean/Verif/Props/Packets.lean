import Verif.PacketLemmas
import Verif.Props.Block
import Verif.Props.Compress
/-
C39 (server hello), C40 (server packets), C41 (client packets), C57 (progress), C62 (truncation).
-/
namespace Klick
open Spec Props

/-! ## C39 -/

/-- Numbers the protocol's integers can carry through this client (below 2^63, see C01). -/
theorem readHello_at (name : Str) (major minor revision : Nat) (tz display : Str) (patch : Nat) (rest : Bytes)
    (hn : TextFits name) (ht : TextFits tz) (hd : TextFits display)
    (h1 : major < 2 ^ 63) (h2 : minor < 2 ^ 63) (h3 : revision < 2 ^ 63) (h4 : patch < 2 ^ 63) :
    readHello (text name ++ (varint major ++ (varint minor ++ (varint revision ++
      ((if 54058 < revision then text tz else []) ++ ((if 54372 < revision then text display else []) ++
        ((if 54401 < revision then varint patch else []) ++ rest))))))) =
      .ok (⟨name, major, minor, revision, if 54058 < revision then some tz else none,
        if 54372 < revision then some display else none, if 54401 < revision then patch else revision⟩, rest) := by
  unfold readHello
  rw [Rd.bind_run_ok (readUtf8String_text _ _ hn), Rd.bind_run_ok (readVarUint_varint _ h1 _),
    Rd.bind_run_ok (readVarUint_varint _ h2 _), Rd.bind_run_ok (readVarUint_varint _ h3 _)]
  have e1 : ∀ r, readIf (decide (revision > 54058)) readUtf8String ((if 54058 < revision then text tz else []) ++ r) =
      .ok (if 54058 < revision then some tz else none, r) := by
    intro r
    unfold readIf
    by_cases h : 54058 < revision
    · simp only [if_pos h, decide_eq_true h, if_true]
      rw [Rd.bind_run_ok (readUtf8String_text _ _ ht)]; rfl
    · simp only [if_neg h]
      rw [if_neg (by simpa using h)]; rfl
  have e2 : ∀ r, readIf (decide (revision > 54372)) readUtf8String ((if 54372 < revision then text display else []) ++ r) =
      .ok (if 54372 < revision then some display else none, r) := by
    intro r
    unfold readIf
    by_cases h : 54372 < revision
    · simp only [if_pos h, decide_eq_true h, if_true]
      rw [Rd.bind_run_ok (readUtf8String_text _ _ hd)]; rfl
    · simp only [if_neg h]
      rw [if_neg (by simpa using h)]; rfl
  have e3 : ∀ r, readIf (decide (revision > 54401)) readVarUint ((if 54401 < revision then varint patch else []) ++ r) =
      .ok (if 54401 < revision then some patch else none, r) := by
    intro r
    unfold readIf
    by_cases h : 54401 < revision
    · simp only [if_pos h, decide_eq_true h, if_true]
      rw [Rd.bind_run_ok (readVarUint_varint _ h4 _)]; rfl
    · simp only [if_neg h]
      rw [if_neg (by simpa using h)]; rfl
  rw [Rd.bind_run_ok (e1 _), Rd.bind_run_ok (e2 _), Rd.bind_run_ok (e3 _)]
  congr 3
  by_cases h : 54401 < revision <;> simp [h]

/-- The id of a packet selects its reader. -/
theorem readPacket_id (cfg : Cfg) (comp : Option Lz4) (revision id : Nat) (h : id < 2 ^ 63) (s : Bytes) :
    readPacket cfg comp revision (varint id ++ s) = readBody cfg comp revision id s := by
  unfold readPacket
  rw [Rd.bind_run_ok (readVarUint_varint id h s)]

/-- C39, away from the three thresholds: for every server revision except exactly 54058, 54372 and
54401 the hello is read field by field as the server sent it (the patch level of an older server is
reported as its revision), up to the next packet. -/
theorem C39_hello_partial (cfg : Cfg) (comp : Option Lz4) (name : Str) (major minor revision : Nat)
    (tz display : Str) (patch : Nat) (rest : Bytes)
    (hn : TextFits name) (ht : TextFits tz) (hd : TextFits display)
    (h1 : major < 2 ^ 63) (h2 : minor < 2 ^ 63) (h3 : revision < 2 ^ 63) (h4 : patch < 2 ^ 63)
    (hr : revision ≠ 54058 ∧ revision ≠ 54372 ∧ revision ≠ 54401) :
    readPacket cfg comp 0 (helloPacket name major minor revision tz display patch ++ rest) =
      .ok (.hello ⟨name, major, minor, revision, if 54058 ≤ revision then some tz else none,
        if 54372 ≤ revision then some display else none, if 54401 ≤ revision then patch else revision⟩, rest) := by
  unfold helloPacket
  simp only [List.append_assoc]
  rw [readPacket_id _ _ _ 0 (by decide)]
  have e1 : (54058 ≤ revision) = (54058 < revision) := by apply propext; omega
  have e2 : (54372 ≤ revision) = (54372 < revision) := by apply propext; omega
  have e3 : (54401 ≤ revision) = (54401 < revision) := by apply propext; omega
  simp only [e1, e2, e3, readBody]
  rw [Rd.bind_run_ok (readHello_at name major minor revision tz display patch rest hn ht hd h1 h2 h3 h4)]
  rfl

/-- C39 fails for servers of revision exactly 54058 (time zone), 54372 (display name) and 54401 (patch
level): the field introduced in that very revision is not read and stays in the stream, in front of
the next packet. -/
theorem C39_hello_false (cfg : Cfg) (comp : Option Lz4) (name : Str) (major minor : Nat)
    (tz display : Str) (patch : Nat) (rest : Bytes)
    (hn : TextFits name) (ht : TextFits tz) (hd : TextFits display)
    (h1 : major < 2 ^ 63) (h2 : minor < 2 ^ 63) (h4 : patch < 2 ^ 63) :
    readPacket cfg comp 0 (helloPacket name major minor 54058 tz display patch ++ rest) =
      .ok (.hello ⟨name, major, minor, 54058, none, none, 54058⟩, text tz ++ rest) ∧
    readPacket cfg comp 0 (helloPacket name major minor 54372 tz display patch ++ rest) =
      .ok (.hello ⟨name, major, minor, 54372, some tz, none, 54372⟩, text display ++ rest) ∧
    readPacket cfg comp 0 (helloPacket name major minor 54401 tz display patch ++ rest) =
      .ok (.hello ⟨name, major, minor, 54401, some tz, some display, 54401⟩, varint patch ++ rest) := by
  refine ⟨?_, ?_, ?_⟩
  · have := readHello_at name major minor 54058 tz display patch (text tz ++ rest) hn ht hd h1 h2 (by decide) h4
    simp only [Nat.lt_irrefl, if_false, List.nil_append, show ¬ (54372 < 54058) by decide,
      show ¬ (54401 < 54058) by decide] at this
    unfold helloPacket
    simp only [List.append_assoc, if_pos (Nat.le_refl _), show ¬ (54372 ≤ 54058) by decide,
      show ¬ (54401 ≤ 54058) by decide, if_false, List.nil_append]
    rw [readPacket_id _ _ _ 0 (by decide)]
    simp only [readBody]
    rw [Rd.bind_run_ok this]; rfl
  · have := readHello_at name major minor 54372 tz display patch (text display ++ rest) hn ht hd h1 h2 (by decide) h4
    simp only [Nat.lt_irrefl, if_false, List.nil_append, show (54058 < 54372) by decide, if_true,
      show ¬ (54401 < 54372) by decide] at this
    unfold helloPacket
    simp only [List.append_assoc, if_pos (Nat.le_refl _), show (54058 ≤ 54372) by decide, if_true,
      show ¬ (54401 ≤ 54372) by decide, if_false, List.nil_append]
    rw [readPacket_id _ _ _ 0 (by decide)]
    simp only [readBody]
    rw [Rd.bind_run_ok this]; rfl
  · have := readHello_at name major minor 54401 tz display patch (varint patch ++ rest) hn ht hd h1 h2 (by decide) h4
    simp only [Nat.lt_irrefl, if_false, List.nil_append, show (54058 < 54401) by decide, if_true,
      show (54372 < 54401) by decide] at this
    unfold helloPacket
    simp only [List.append_assoc, if_pos (Nat.le_refl _), show (54058 ≤ 54401) by decide, if_true,
      show (54372 ≤ 54401) by decide]
    rw [readPacket_id _ _ _ 0 (by decide)]
    simp only [readBody]
    rw [Rd.bind_run_ok this]; rfl

example := C39_hello_partial cfgDebug none (ch!"srv") 22 9 54460 (ch!"UTC") (ch!"host") 3 [1, 2]
  (by unfold TextFits; decide) (by unfold TextFits; decide) (by unfold TextFits; decide) (by decide) (by decide) (by decide) (by decide) (by decide)
example := C39_hello_false cfgDebug none (ch!"srv") 22 9 (ch!"UTC") (ch!"host") 3 [1, 2]
  (by unfold TextFits; decide) (by unfold TextFits; decide) (by unfold TextFits; decide) (by decide) (by decide) (by decide)

/-- C39: a server that refuses the connection with an exception instead of a hello makes the hello
exchange fail with exactly that exception. (What the caller of `connect` is told is the subject of C70.) -/
theorem C39_refused (cfg : Cfg) (comp : Option Lz4) (code : BitVec 32) (name message stack : Str) (nested : Bool)
    (rest : Bytes) (hn : TextFits name) (hm : TextFits message) (hs : TextFits stack) :
    receiveHello cfg comp (varint 2 ++ exceptionBody code name message stack nested ++ rest) =
      .err (.serverException code (utf8Encode name) (utf8Encode message) (utf8Encode stack)) := by
  unfold receiveHello exceptionBody
  simp only [List.append_assoc]
  have : readPacket cfg comp 0 (varint 2 ++ (le 4 code.toNat ++ (text name ++ (text message ++ (text stack ++
      (flag nested ++ rest)))))) = .ok (.exception ⟨code, name, message, stack, nested⟩, rest) := by
    rw [readPacket_id _ _ _ 2 (by decide)]
    unfold readBody readException
    simp only
    rw [Rd.bind_run_ok (s' := rest) (a := ⟨code, name, message, stack, nested⟩)]
    · rfl
    · rw [Rd.bind_run_ok (readLe_le rfl _ _), Rd.bind_run_ok (readUtf8String_text _ _ hn),
        Rd.bind_run_ok (readUtf8String_text _ _ hm), Rd.bind_run_ok (readUtf8String_text _ _ hs),
        Rd.bind_run_ok (readU8_flag _ _)]
      cases nested <;> rfl
  rw [Rd.bind_run_ok this]
  rfl

/-! ## C40 -/

/-- C40, packets with a block (data, totals, extremes), uncompressed: whatever bytes decode to a block,
the packet made of them decodes to that block under the right kind and table name, and the stream
stands at the next packet. -/
theorem C40_data (cfg : Cfg) (revision : Nat) (k : DataKind) (table : Str) (ht : TextFits table)
    (bytes : Bytes) (b : Block) (hb : readBlock cfg revision bytes = .ok (b, [])) (rest : Bytes) :
    readPacket cfg none revision (dataPacket k table bytes ++ rest) = .ok (k.packet table b, rest) := by
  unfold dataPacket
  simp only [List.append_assoc]
  have e : readData cfg none revision (text table ++ (bytes ++ rest)) = .ok ((table, b), rest) := by
    unfold readData
    rw [Rd.bind_run_ok (readUtf8String_text _ _ ht)]
    unfold readDataBlock
    rw [Rd.bind_run_ok ((Steady.readBlock cfg revision).exact hb rest)]
    rfl
  cases k <;>
  · rw [readPacket_id _ _ _ _ (by decide)]
    simp only [readBody, DataKind.id]
    rw [Rd.bind_run_ok e]
    rfl

/-- C40, the same with compression: the block's bytes may be cut into any number of non-empty intact
frames. -/
theorem C40_data_compressed (cfg : Cfg) (lz : Lz4) (revision : Nat) (k : DataKind) (table : Str)
    (ht : TextFits table) (bytes : Bytes) (b : Block) (hb : readBlock cfg revision bytes = .ok (b, []))
    (s rest : Bytes) (ds : List Bytes) (hf : Frames lz s ds rest) (hd : ds.flatten = bytes) (hne : ∀ d ∈ ds, d ≠ []) :
    readPacket cfg (some lz) revision (dataPacket k table s) = .ok (k.packet table b, rest) := by
  unfold dataPacket
  simp only [List.append_assoc]
  have e : readData cfg (some lz) revision (text table ++ s) = .ok ((table, b), rest) := by
    unfold readData
    rw [Rd.bind_run_ok (readUtf8String_text _ _ ht)]
    unfold readDataBlock
    rw [Rd.bind_run_ok (framed_read (Steady.readBlock cfg revision) hb hf hd hne)]
    rfl
  cases k <;>
  · rw [readPacket_id _ _ _ _ (by decide)]
    simp only [readBody, DataKind.id]
    rw [Rd.bind_run_ok e]
    rfl

/-- C40: progress packets, before and since revision 54420. -/
theorem C40_progress (cfg : Cfg) (comp : Option Lz4) (revision rows bytes total wrows wbytes : Nat) (rest : Bytes)
    (h1 : rows < 2 ^ 63) (h2 : bytes < 2 ^ 63) (h3 : total < 2 ^ 63) (h4 : wrows < 2 ^ 63) (h5 : wbytes < 2 ^ 63) :
    readPacket cfg comp revision (progressPacket revision rows bytes total wrows wbytes ++ rest) =
      .ok (.progress ⟨rows, bytes, total, if 54420 ≤ revision then some wrows else none,
        if 54420 ≤ revision then some wbytes else none⟩, rest) := by
  unfold progressPacket
  simp only [List.append_assoc]
  rw [readPacket_id _ _ _ 3 (by decide)]
  simp only [readBody, readProgress]
  by_cases h : 54420 ≤ revision
  · simp only [if_pos h, List.append_assoc]
    rw [Rd.bind_run_ok (s' := rest) (a := ⟨rows, bytes, total, some wrows, some wbytes⟩)]
    · rfl
    · rw [Rd.bind_run_ok (readVarUint_varint _ h1 _), Rd.bind_run_ok (readVarUint_varint _ h2 _),
        Rd.bind_run_ok (readVarUint_varint _ h3 _)]
      have e : ∀ w r, w < 2 ^ 63 → readIf (decide (revision ≥ 54420)) readVarUint (varint w ++ r) = .ok (some w, r) := by
        intro w r hw
        unfold readIf
        rw [if_pos (by simpa using h), Rd.bind_run_ok (readVarUint_varint _ hw _)]; rfl
      rw [Rd.bind_run_ok (e _ _ h4), Rd.bind_run_ok (e _ _ h5)]
      rfl
  · simp only [if_neg h, List.nil_append]
    rw [Rd.bind_run_ok (s' := rest) (a := ⟨rows, bytes, total, none, none⟩)]
    · rfl
    · rw [Rd.bind_run_ok (readVarUint_varint _ h1 _), Rd.bind_run_ok (readVarUint_varint _ h2 _),
        Rd.bind_run_ok (readVarUint_varint _ h3 _)]
      have e : ∀ r, readIf (decide (revision ≥ 54420)) readVarUint r = .ok (none, r) := by
        intro r
        unfold readIf
        rw [if_neg (by simpa using h)]; rfl
      rw [Rd.bind_run_ok (e _), Rd.bind_run_ok (e _)]
      rfl

/-- C40: profile information. -/
theorem C40_profile (cfg : Cfg) (comp : Option Lz4) (revision rows blocks bytes before : Nat) (limit calcd : Bool)
    (rest : Bytes) (h1 : rows < 2 ^ 63) (h2 : blocks < 2 ^ 63) (h3 : bytes < 2 ^ 63) (h4 : before < 2 ^ 63) :
    readPacket cfg comp revision (profilePacket rows blocks bytes limit before calcd ++ rest) =
      .ok (.profileInfo ⟨rows, blocks, bytes, limit, before, calcd⟩, rest) := by
  unfold profilePacket
  simp only [List.append_assoc]
  rw [readPacket_id _ _ _ 6 (by decide)]
  simp only [readBody, readProfileInfo]
  rw [Rd.bind_run_ok (s' := rest) (a := ⟨rows, blocks, bytes, limit, before, calcd⟩)]
  · rfl
  · rw [Rd.bind_run_ok (readVarUint_varint _ h1 _), Rd.bind_run_ok (readVarUint_varint _ h2 _),
      Rd.bind_run_ok (readVarUint_varint _ h3 _), Rd.bind_run_ok (readU8_flag _ _),
      Rd.bind_run_ok (readVarUint_varint _ h4 _), Rd.bind_run_ok (readU8_flag _ _)]
    cases limit <;> cases calcd <;> rfl

/-- C40: packets without a body. -/
theorem C40_bodyless (cfg : Cfg) (comp : Option Lz4) (revision : Nat) (rest : Bytes) :
    readPacket cfg comp revision (varint 4 ++ rest) = .ok (.pong, rest) ∧
    readPacket cfg comp revision (varint 5 ++ rest) = .ok (.endOfStream, rest) ∧
    readPacket cfg comp revision (varint 13 ++ rest) = .ok (.readTaskRequest, rest) := by
  refine ⟨?_, ?_, ?_⟩ <;> rw [readPacket_id _ _ _ _ (by decide)] <;> rfl

/-- C40: the column description packet. -/
theorem C40_columns (cfg : Cfg) (comp : Option Lz4) (revision : Nat) (name description : Str) (rest : Bytes)
    (hn : TextFits name) (hd : TextFits description) :
    readPacket cfg comp revision (varint 11 ++ text name ++ text description ++ rest) =
      .ok (.tableColumns name description, rest) := by
  simp only [List.append_assoc]
  rw [readPacket_id _ _ _ 11 (by decide)]
  simp only [readBody]
  rw [Rd.bind_run_ok (readUtf8String_text _ _ hn), Rd.bind_run_ok (readUtf8String_text _ _ hd)]
  rfl

/-- C40: table statuses. The response maps exactly the tables named in it, each to the last status sent
for it. -/
theorem C40_statuses (cfg : Cfg) (comp : Option Lz4) (revision : Nat) (ls : List StatusLine)
    (hok : ∀ l ∈ ls, l.Ok) (hl : ls.length ≤ 2 ^ 30) (rest : Bytes) :
    ∃ m, readPacket cfg comp revision (statusPacket ls ++ rest) = .ok (.tablesStatus m, rest) ∧
      ∀ db table, (m.get db).bind (fun d => d.get table) = statusOf ls db table := by
  obtain ⟨m, h1, h2⟩ := readStatuses_lines ls hok [] rest
  refine ⟨m, ?_, ?_⟩
  · unfold statusPacket
    simp only [List.append_assoc]
    rw [readPacket_id _ _ _ 9 (by decide)]
    simp only [readBody]
    rw [Rd.bind_run_ok (readVarUint_varint _ (by omega) _), if_neg (by unfold maxStringSize; omega),
      Rd.bind_run_ok h1]
    rfl
  · intro db table
    have := h2 db table
    unfold statusIn at this
    rw [this]
    simp [IMap.get]

/-- C40: part identifiers, if the server sent their octets most significant first. -/
theorem C40_parts_partial (cfg : Cfg) (comp : Option Lz4) (revision : Nat) (ids : List (BitVec 128))
    (hl : ids.length ≤ 2 ^ 30) (rest : Bytes) :
    readPacket cfg comp revision (partsPacket ids ++ rest) = .ok (.partUuids ids, rest) := by
  unfold partsPacket
  simp only [List.append_assoc]
  rw [readPacket_id _ _ _ 12 (by decide)]
  simp only [readBody]
  rw [Rd.bind_run_ok (readVarUint_varint _ (by omega) _), if_neg (by unfold maxStringSize; omega)]
  have := rep_map (f := fun i : BitVec 128 => be 16 i.toNat) (r := readExact 16 >>= fun b => pure (BitVec.ofNat 128 (unBe b)))
    (g := fun i => i) ids (fun x _ rest => readExact_be (n := 16) (w := 128) (by decide) x rest) rest
  rw [← List.flatMap_def, List.map_id'] at this
  rw [Rd.bind_run_ok this]
  rfl

/-- C40 fails for part identifiers in the layout that UUIDs have everywhere else in the protocol (see
C05): an identifier comes out with the octets of each half reversed. -/
theorem C40_parts_false :
    readPacket cfgDebug none 54448 (partsAsUuid [0x00112233445566778899aabbccddeeff#128]) =
      .ok (.partUuids [0x7766554433221100ffeeddccbbaa9988#128], []) := by
  unfold partsAsUuid
  rw [List.append_assoc, readPacket_id _ _ _ 12 (by decide)]
  simp only [readBody]
  rw [Rd.bind_run_ok (readVarUint_varint _ (by decide) _)]
  rfl

/-- C40, exceptions: the exception in front of the chain is returned with its fields, and the nested
exceptions the server sent with it are left in the stream. -/
theorem C40_exception (cfg : Cfg) (comp : Option Lz4) (revision : Nat) (code : BitVec 32) (name message stack : Str)
    (nested : List (BitVec 32 × Str × Str × Str)) (rest : Bytes)
    (hn : TextFits name) (hm : TextFits message) (hs : TextFits stack) :
    readPacket cfg comp revision (varint 2 ++ exceptionChain ((code, name, message, stack) :: nested) ++ rest) =
      .ok (.exception ⟨code, name, message, stack, !nested.isEmpty⟩, exceptionChain nested ++ rest) := by
  have e : exceptionChain ((code, name, message, stack) :: nested) =
      exceptionBody code name message stack (!nested.isEmpty) ++ exceptionChain nested := rfl
  rw [e]
  unfold exceptionBody
  simp only [List.append_assoc]
  rw [readPacket_id _ _ _ 2 (by decide)]
  unfold readBody readException
  simp only
  rw [Rd.bind_run_ok (s' := exceptionChain nested ++ rest) (a := ⟨code, name, message, stack, !nested.isEmpty⟩)]
  · rfl
  · rw [Rd.bind_run_ok (readLe_le rfl _ _), Rd.bind_run_ok (readUtf8String_text _ _ hn),
      Rd.bind_run_ok (readUtf8String_text _ _ hm), Rd.bind_run_ok (readUtf8String_text _ _ hs),
      Rd.bind_run_ok (readU8_flag _ _)]
    cases nested <;> rfl

/-- C40: an exception without nested ones leaves the stream at the next packet. -/
theorem C40_exception_partial (cfg : Cfg) (comp : Option Lz4) (revision : Nat) (code : BitVec 32)
    (name message stack : Str) (rest : Bytes)
    (hn : TextFits name) (hm : TextFits message) (hs : TextFits stack) :
    readPacket cfg comp revision (varint 2 ++ exceptionChain [(code, name, message, stack)] ++ rest) =
      .ok (.exception ⟨code, name, message, stack, false⟩, rest) :=
  C40_exception cfg comp revision code name message stack [] rest hn hm hs

/-- C40 fails for exceptions with a nested one: after such a packet and an end-of-stream packet, the
client does not find the end of stream but takes the nested exception's code (here 57 = 0x39) for a
packet id and gives up with a protocol error. -/
theorem C40_nested_false :
    ∃ s, readPacket cfgDebug none 54448
        (varint 2 ++ exceptionChain [(1#32, ch!"A", [], []), (57#32, ch!"B", [], [])] ++ varint 5) =
          .ok (.exception ⟨1#32, ch!"A", [], [], true⟩, s) ∧
      readPacket cfgDebug none 54448 s = .err .protocol := by
  refine ⟨exceptionChain [(57#32, ch!"B", [], [])] ++ varint 5, ?_, rfl⟩
  exact C40_exception cfgDebug none 54448 1#32 (ch!"A") [] [] [(57#32, ch!"B", [], [])] (varint 5)
    (by unfold TextFits; decide) (by unfold TextFits; decide) (by unfold TextFits; decide)

/-- C40 fails for log packets (id 10): whatever follows, the client panics. -/
theorem C40_log_false (cfg : Cfg) (comp : Option Lz4) (revision : Nat) (rest : Bytes) :
    readPacket cfg comp revision (varint 10 ++ rest) = .panic := by
  rw [readPacket_id _ _ _ 10 (by decide)]; rfl

/-- C40: unknown packet ids are refused as protocol errors. -/
theorem C40_unknown_refused (cfg : Cfg) (comp : Option Lz4) (revision id : Nat) (h : 14 ≤ id) (h' : id < 2 ^ 63)
    (rest : Bytes) : readPacket cfg comp revision (varint id ++ rest) = .err .protocol := by
  rw [readPacket_id _ _ _ _ h']
  unfold readBody
  split <;> first | omega | rfl

theorem ex_fits : TextFits (ch!"tbl") := by unfold TextFits; decide
example := C40_data cfgDebug 1 .totals (ch!"tbl") ex_fits
  (exBlock.write cfgDebug 1).1 { exBlock with info := { exBlock.info with isOverflows := true } } rfl [9]
example := C40_statuses cfgDebug none 0 [⟨ch!"d", ch!"t", some 5⟩, ⟨ch!"d", ch!"u", none⟩]
  (by intro l hl; simp at hl; rcases hl with rfl | rfl <;> (unfold StatusLine.Ok TextFits; decide)) (by decide) [7]
example := C40_exception_partial cfgDebug none 0 60#32 (ch!"DB::Exception") (ch!"no table") [] [5]
  (by unfold TextFits; decide) (by unfold TextFits; decide) (by unfold TextFits; decide)

end Klick
