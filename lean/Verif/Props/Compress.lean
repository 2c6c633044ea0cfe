import Verif.Spec.Compress
import Verif.IoLemmas
import Verif.Props.Block
/-
C42-C44: compressed frames.
-/
namespace Klick
open Spec Props

theorem join_toNat (hi lo : BitVec 64) :
    ((hi.setWidth 128 <<< 64) ||| lo.setWidth 128 : BitVec 128).toNat = hi.toNat * 2 ^ 64 + lo.toNat := by
  have h1 := hi.isLt
  have h2 := lo.isLt
  simp only [BitVec.toNat_or, BitVec.toNat_shiftLeft, BitVec.toNat_setWidth, Nat.shiftLeft_eq]
  rw [Nat.mod_eq_of_lt (by omega : hi.toNat < 2 ^ 128), Nat.mod_eq_of_lt (by omega : lo.toNat < 2 ^ 128),
    Nat.mod_eq_of_lt (by omega), Nat.mul_comm, ← Nat.two_pow_add_eq_or_of_lt h2]

theorem readLe_inv {n w : Nat} (hw : w = 8 * n) {s s' : Bytes} {x : BitVec w}
    (h : readLe n w s = .ok (x, s')) : s = le n x.toNat ++ s' := by
  unfold readLe at h
  obtain ⟨bs, r, h1, h2⟩ := Rd.bind_eq_ok.mp h
  obtain ⟨h3, h4⟩ := readExact_ok h1
  simp only [Rd.pure_apply, Res.ok.injEq, Prod.mk.injEq] at h2
  obtain ⟨rfl, rfl⟩ := h2
  subst hw
  have e : (BitVec.ofNat (8 * n) (unLe bs)).toNat = unLe bs := by
    have := unLe_lt bs
    rw [BitVec.toNat_ofNat, Nat.mod_eq_of_lt]
    rw [h4] at this
    have e : (2 : Nat) ^ (8 * n) = 256 ^ n := by rw [Nat.pow_mul]
    rw [e]; exact this
  rw [e]
  have := le_unLe bs
  rw [h4] at this
  rw [this, h3]

theorem readLe_nat {n w : Nat} (hw : w = 8 * n) (x : Nat) (hx : x < 2 ^ w) (rest : Bytes) :
    readLe n w (le n x ++ rest) = .ok (BitVec.ofNat w x, rest) := by
  have := readLe_le hw (BitVec.ofNat w x) rest
  rwa [BitVec.toNat_ofNat, Nat.mod_eq_of_lt hx] at this

/-- Reading an intact frame. -/
theorem readFrame_of_isFrame {lz : Lz4} {f d : Bytes} (h : IsFrame lz f d) (rest : Bytes) :
    readFrame lz lz4Byte (f ++ rest) = .ok (d, rest) := by
  obtain ⟨body, n, h1, h2, rfl, h4, h5⟩ := h
  have hh := (lz.hash (checksummed n body)).isLt
  unfold readFrame
  simp only [List.append_assoc]
  rw [Rd.bind_run_ok (readLe_nat rfl _ (by omega) _), Rd.bind_run_ok (readLe_nat rfl _ (by omega) _)]
  have e : checksummed n body ++ rest = 0x82#8 :: (le 4 (body.length + 9) ++ (le 4 n ++ (body ++ rest))) := by
    simp [checksummed]
  rw [e, Rd.bind_run_ok (s' := le 4 (body.length + 9) ++ (le 4 n ++ (body ++ rest))) (a := 0x82#8) rfl]
  rw [if_neg (by simp [lz4Byte])]
  rw [Rd.bind_run_ok (readLe_nat rfl _ (by omega) _)]
  have e1 : (BitVec.ofNat 32 (body.length + 9)).toNat = body.length + 9 := by
    rw [BitVec.toNat_ofNat, Nat.mod_eq_of_lt (by omega)]
  have e2 : (BitVec.ofNat 32 n).toNat = n := by
    rw [BitVec.toNat_ofNat, Nat.mod_eq_of_lt (by omega)]
  rw [e1, if_neg (by simp only [maxCompressionSize]; omega), if_neg (by omega),
    Rd.bind_run_ok (readLe_nat rfl _ (by omega) _), Rd.bind_run_ok (readExact_append _ _ (by omega)), e2]
  rw [if_neg]
  · simp only [Rd.lift, decompressBlock, h4]
    rw [if_neg (by omega)]
  · simp only [ne_eq, Decidable.not_not]
    apply BitVec.eq_of_toNat_eq
    rw [join_toNat, BitVec.toNat_ofNat, BitVec.toNat_ofNat, Nat.mod_eq_of_lt (a := _ / _) (by omega),
      Nat.mod_mod]
    show (lz.hash (checksummed n body)).toNat = _
    omega

theorem readU8_inv {s s' : Bytes} {b : Byte} (h : readU8 s = .ok (b, s')) : s = b :: s' := by
  cases s with
  | nil => cases h
  | cons c s =>
    simp only [readU8, Res.ok.injEq, Prod.mk.injEq] at h
    obtain ⟨rfl, rfl⟩ := h
    rfl

/-- C43: whatever is accepted as a frame is one: the checksum matches header and body, the method is
LZ4, the size is between 9 and 2^30, and the data returned is what the decompressor makes of exactly
those body bytes; nothing after the frame is consumed. -/
theorem C43_accepted_is_intact (lz : Lz4) (s d rest : Bytes) (h : readFrame lz lz4Byte s = .ok (d, rest)) :
    ∃ f, s = f ++ rest ∧ IsFrame lz f d := by
  unfold readFrame at h
  obtain ⟨hi, s1, h1, h⟩ := Rd.bind_eq_ok.mp h
  obtain ⟨lo, s2, h2, h⟩ := Rd.bind_eq_ok.mp h
  obtain ⟨b, s3, h3, h⟩ := Rd.bind_eq_ok.mp h
  by_cases hb : b ≠ lz4Byte
  · rw [if_pos hb] at h; cases h
  rw [if_neg hb] at h
  simp only [ne_eq, Decidable.not_not] at hb
  obtain ⟨sz, s4, h4, h⟩ := Rd.bind_eq_ok.mp h
  by_cases hs : sz.toNat > maxCompressionSize
  · rw [if_pos hs] at h; cases h
  rw [if_neg hs] at h
  by_cases hs' : sz.toNat < 9
  · rw [if_pos hs'] at h; cases h
  rw [if_neg hs'] at h
  obtain ⟨n, s5, h5, h⟩ := Rd.bind_eq_ok.mp h
  obtain ⟨body, s6, h6, h⟩ := Rd.bind_eq_ok.mp h
  have e1 := readLe_inv rfl h1
  have e2 := readLe_inv rfl h2
  have e3 := readU8_inv h3
  have e4 := readLe_inv rfl h4
  have e5 := readLe_inv rfl h5
  obtain ⟨e6, e7⟩ := readExact_ok h6
  subst hb
  by_cases hc : lz.hash (lz4Byte :: (le 4 sz.toNat ++ le 4 n.toNat ++ body)) ≠
      hi.setWidth 128 <<< 64 ||| lo.setWidth 128
  · rw [if_pos hc] at h; cases h
  rw [if_neg hc] at h
  simp only [ne_eq, Decidable.not_not] at hc
  have hlen : body.length + 9 = sz.toNat := by omega
  have hck : checksummed n.toNat body = lz4Byte :: (le 4 sz.toNat ++ le 4 n.toNat ++ body) := by
    unfold checksummed; rw [hlen]; rfl
  have hv := join_toNat hi lo
  rw [← hc, ← hck] at hv
  have l1 := hi.isLt
  have l2 := lo.isLt
  have l3 := n.isLt
  obtain ⟨hd, rfl⟩ : decompressBlock lz body n.toNat = .ok d ∧ s6 = rest := Rd.lift_eq_ok h
  unfold decompressBlock at hd
  cases hz : lz.decompress body (n.toNat + 1) with
  | none => rw [hz] at hd; cases hd
  | some out =>
    rw [hz] at hd
    simp only at hd
    by_cases hl : out.length > n.toNat + 1
    · rw [if_pos hl] at hd; cases hd
    rw [if_neg hl] at hd
    cases hd
    refine ⟨_, ?_, body, n.toNat, by simp only [maxCompressionSize] at hs; omega, l3, rfl, hz, by omega⟩
    have d1 : (lz.hash (checksummed n.toNat body)).toNat / 2 ^ 64 = hi.toNat := by omega
    have d2 : (lz.hash (checksummed n.toNat body)).toNat % 2 ^ 64 = lo.toNat := by omega
    rw [d1, d2, hck, e1, e2, e3, e4, e5, e6]
    simp

theorem readU8_ne_panic (s : Bytes) : readU8 s ≠ .panic := by
  cases s <;> (intro h; cases h)

/-- C43: reading a frame never panics (the decompressor honours its buffer). -/
theorem C43_never_panics (lz : Lz4) (hlz : ∀ b n out, lz.decompress b n = some out → out.length ≤ n)
    (m : Byte) (s : Bytes) : readFrame lz m s ≠ .panic := by
  intro h
  unfold readFrame at h
  rcases Rd.bind_eq_panic.mp h with h | ⟨_, _, _, h⟩
  · exact readLe_ne_panic _ _ _ h
  rcases Rd.bind_eq_panic.mp h with h | ⟨_, _, _, h⟩
  · exact readLe_ne_panic _ _ _ h
  rcases Rd.bind_eq_panic.mp h with h | ⟨b, s3, _, h⟩
  · exact readU8_ne_panic _ h
  split at h
  · cases h
  rcases Rd.bind_eq_panic.mp h with h | ⟨sz, _, _, h⟩
  · exact readLe_ne_panic _ _ _ h
  split at h
  · cases h
  split at h
  · cases h
  rcases Rd.bind_eq_panic.mp h with h | ⟨n, _, _, h⟩
  · exact readLe_ne_panic _ _ _ h
  rcases Rd.bind_eq_panic.mp h with h | ⟨body, _, _, h⟩
  · exact readExact_ne_panic _ _ h
  split at h
  · cases h
  unfold Rd.lift decompressBlock at h
  cases hz : lz.decompress body (n.toNat + 1) with
  | none => rw [hz] at h; cases h
  | some out =>
    have := hlz _ _ _ hz
    rw [hz] at h
    simp only at h
    rw [if_neg (by omega)] at h
    cases h

/-- C43: so anything that is not an intact frame is refused with an error. -/
theorem C43_damaged_is_refused (lz : Lz4) (hlz : ∀ b n out, lz.decompress b n = some out → out.length ≤ n)
    (s : Bytes) (h : ∀ f d rest, s = f ++ rest → ¬ IsFrame lz f d) : ∃ e, readFrame lz lz4Byte s = .err e := by
  cases hr : readFrame lz lz4Byte s with
  | ok p =>
    obtain ⟨f, h1, h2⟩ := C43_accepted_is_intact lz s p.1 p.2 hr
    exact absurd h2 (h f p.1 p.2 h1)
  | err e => exact ⟨e, rfl⟩
  | panic => exact absurd hr (C43_never_panics lz hlz _ _)

/-- C43: a frame whose body or checksum is altered is refused unless the altered frame's checksum
happens to be right: for a changed checksum field (16 octets) always. -/
theorem C43_wrong_checksum_refused (lz : Lz4) (n : Nat) (body sum rest d : Bytes) (r : Bytes)
    (hs : sum.length = 16)
    (hw : sum ≠ le 8 ((lz.hash (checksummed n body)).toNat / 2 ^ 64) ++
      le 8 ((lz.hash (checksummed n body)).toNat % 2 ^ 64))
    (hl : body.length + 9 < 2 ^ 32) (hn : n < 2 ^ 32) :
    readFrame lz lz4Byte (sum ++ checksummed n body ++ rest) ≠ .ok (d, r) := by
  intro h
  obtain ⟨f, h1, body', n', h2, h3, rfl, h4, h5⟩ := C43_accepted_is_intact lz _ _ _ h
  simp only [List.append_assoc] at h1
  have hl16 : sum.length = (le 8 ((lz.hash (checksummed n' body')).toNat / 2 ^ 64) ++
      le 8 ((lz.hash (checksummed n' body')).toNat % 2 ^ 64)).length := by simp [hs]
  rw [← List.append_assoc (le 8 _) (le 8 _)] at h1
  obtain ⟨e1, e2⟩ := List.append_inj h1 hl16
  unfold checksummed at e2
  simp only [List.cons_append, List.append_assoc, List.cons.injEq, true_and] at e2
  obtain ⟨e3, e4⟩ := List.append_inj e2 (by simp)
  obtain ⟨e5, e6⟩ := List.append_inj e4 (by simp)
  have f1 := congrArg unLe e3
  have f2 := congrArg unLe e5
  rw [unLe_le, unLe_le] at f1 f2
  have hb : body.length = body'.length := by omega
  obtain ⟨e7, _⟩ := List.append_inj e6 hb
  have hn' : n = n' := by omega
  subst e7 hn'
  exact hw e1

/-- C43 does not extend to the announced raw size: it is never compared with what the decompressor
produced. A frame announcing any size is accepted with whatever fits the buffer. -/
theorem C43_announced_size_unchecked (lz : Lz4) (body data : Bytes) (n : Nat) (hb : body.length + 9 ≤ 2 ^ 30)
    (hn : n < 2 ^ 32) (hz : lz.decompress body (n + 1) = some data) (hd : data.length ≤ n + 1) (rest : Bytes) :
    ∃ f, IsFrame lz f data ∧ readFrame lz lz4Byte (f ++ rest) = .ok (data, rest) := by
  have h : IsFrame lz _ data := ⟨body, n, hb, hn, rfl, hz, hd⟩
  exact ⟨_, h, readFrame_of_isFrame h rest⟩

/-! ## C42 -/

/-- The frame the client writes is an intact frame. -/
theorem frame_isFrame (lz : Lz4) (c raw : Bytes) (hc : c.length + 9 ≤ 2 ^ 30) (hr : raw.length < 2 ^ 32)
    (hz : lz.decompress c (raw.length + 1) = some raw) :
    IsFrame lz (frame lz lz4Byte c raw.length) raw := by
  refine ⟨c, raw.length, hc, hr, ?_, hz, by omega⟩
  have h := (lz.hash (checksummed raw.length c)).isLt
  show le 8 (lz.hash (checksummed raw.length c) >>> 64).toNat ++ le 8 (lz.hash (checksummed raw.length c)).toNat ++
    checksummed raw.length c = _
  have e1 : (lz.hash (checksummed raw.length c) >>> 64).toNat =
      (lz.hash (checksummed raw.length c)).toNat / 2 ^ 64 := by
    rw [BitVec.toNat_ushiftRight, Nat.shiftRight_eq_div_pow]
  have e2 : ∀ x : Nat, le 8 x = le 8 (x % 2 ^ 64) := by
    intro x
    have h1 := le_unLe (le 8 x)
    rw [le_length, unLe_le] at h1
    exact h1.symm
  rw [e1, e2 (lz.hash (checksummed raw.length c)).toNat]

/-- C42: a block compressed into a frame is read back as exactly the block's bytes, and reading stops
at the end of the frame; the decompressor is assumed to invert the compressor given enough room. The
size limits are those of the protocol (2^30 for header and body, 2^31 for the raw block). -/
theorem C42_frame_roundtrip (cfg : Cfg) (lz : Lz4) (b : Block) (revision : Nat)
    (hlz : ∀ raw c, lz.compress raw = some c → lz.decompress c (raw.length + 1) = some raw)
    (bytes c : Bytes) (hw : b.write cfg revision = (bytes, .ok ())) (hc : lz.compress bytes = some c)
    (hcl : c.length + 9 ≤ 2 ^ 30) (hrl : bytes.length < 2 ^ 31) :
    ∃ f, compressData cfg lz b revision = .ok f ∧
      ∀ rest, readFrame lz lz4Byte (f ++ rest) = .ok (bytes, rest) := by
  refine ⟨frame lz lz4Byte c bytes.length, ?_, ?_⟩
  · simp [compressData, compressBlock, hw, hc]
  · intro rest
    exact readFrame_of_isFrame (frame_isFrame lz c bytes hcl (by omega) (hlz _ _ hc)) rest

/-- C42: a block that cannot be serialised, or that the compressor rejects, is not framed at all. -/
theorem C42_no_frame_on_error (cfg : Cfg) (lz : Lz4) (b : Block) (revision : Nat)
    (h : (b.write cfg revision).2 ≠ .ok () ∨ lz.compress (b.write cfg revision).1 = none) :
    ∀ f, compressData cfg lz b revision ≠ .ok f := by
  intro f hf
  unfold compressData compressBlock at hf
  obtain ⟨p, h1, _⟩ := Res.bind_eq_ok.mp hf
  obtain ⟨u, h2, h3⟩ := Res.bind_eq_ok.mp h1
  cases u
  rcases h with h | h
  · exact h h2
  · rw [h] at h3; cases h3

/-- C42 beyond the protocol's limit: the client checks no size before sending, and a body of more than
2^30 - 9 bytes is refused by the reader on the other side of the same protocol. -/
theorem C42_oversize_refused (lz : Lz4) (c rest : Bytes) (n : Nat) (h : 2 ^ 30 < c.length + 9)
    (h32 : c.length + 9 < 2 ^ 32) : readFrame lz lz4Byte (frame lz lz4Byte c n ++ rest) = .err .protocol := by
  unfold readFrame frame
  simp only [List.append_assoc, List.cons_append]
  have e : ∀ x : Nat, le 8 x = le 8 (BitVec.ofNat 64 x).toNat := by
    intro x
    have h1 := le_unLe (le 8 x)
    rw [le_length, unLe_le] at h1
    rw [BitVec.toNat_ofNat]
    exact h1.symm
  rw [e, e (lz.hash _).toNat, Rd.bind_run_ok (readLe_le rfl _ _), Rd.bind_run_ok (readLe_le rfl _ _)]
  rw [Rd.bind_run_ok (s' := _) (a := lz4Byte) rfl, if_neg (by simp),
    Rd.bind_run_ok (readLe_nat rfl _ (by omega) _)]
  rw [BitVec.toNat_ofNat, Nat.mod_eq_of_lt (by omega), if_pos (by simp only [maxCompressionSize]; omega)]
  rfl

/-- A toy compressor for the examples: store, with a marker byte. -/
def exLz : Lz4 where
  compress raw := some (7 :: raw)
  decompress
    | 7 :: raw, cap => if raw.length ≤ cap then some raw else none
    | _, _ => none
  hash b := BitVec.ofNat 128 (unLe (b.take 16))

theorem exLz_inv : ∀ raw c, exLz.compress raw = some c → exLz.decompress c (raw.length + 1) = some raw := by
  intro raw c h
  cases h
  simp [exLz]

example := C42_frame_roundtrip cfgDebug exLz exBlock 1 exLz_inv _ _ rfl rfl (by decide) (by decide)
example : IsFrame exLz (frame exLz lz4Byte [7, 1, 2] 2) [1, 2] := frame_isFrame exLz [7, 1, 2] [1, 2] (by decide) (by decide) rfl

/-! ## C44 -/

/-- The reader has `ds` frames of content still to take from the transport. -/
def DReader.Inv (lz : Lz4) (d : DReader) (ds : List Bytes) (rest : Bytes) : Prop :=
  (∃ s, d.inner = some s ∧ d.future = none ∧ Frames lz s ds rest) ∨
  (∃ s, d.inner = none ∧ d.future = some s ∧ d.position ≥ d.decompressed.length ∧ Frames lz s ds rest)

/-- The content still to come. -/
def DReader.left (d : DReader) (ds : List Bytes) : Bytes := d.decompressed.drop d.position ++ ds.flatten

theorem finish_frame {lz : Lz4} {d0 : DReader} {f d s : Bytes} (h : IsFrame lz f d) :
    DReader.finish lz d0 (f ++ s) = (⟨some s, d, 0, none⟩, true) := by
  unfold DReader.finish
  rw [readFrame_of_isFrame h]

theorem serve_spec {lz : Lz4} {n : Nat} (hn : 0 < n) (rest : Bytes) :
    ∀ (ds : List Bytes) (k : Nat) (d : DReader) (s : Bytes), d.inner = some s → d.future = none →
      Frames lz s ds rest → d.left ds ≠ [] →
      ∃ ds', d.left ds = pollBytes (DReader.serve lz n k d).1 ++ (DReader.serve lz n k d).2.left ds' ∧
        (DReader.serve lz n k d).1 ≠ .error ∧ (DReader.serve lz n k d).2.Inv lz ds' rest ∧
        (ds.length ≤ k → pollBytes (DReader.serve lz n k d).1 ≠ []) ∧
        (DReader.serve lz n k d).1 ≠ .ready [] ∧ ds'.length ≤ ds.length ∧
        (pollBytes (DReader.serve lz n k d).1).length ≤ n := by
  intro ds
  induction ds with
  | nil =>
    intro k d s h1 h2 h3 h4
    have hp : d.position < d.decompressed.length := by
      simp only [DReader.left, List.flatten_nil, List.append_nil] at h4
      rcases Nat.lt_or_ge d.position d.decompressed.length with h | h
      · exact h
      · exact absurd (List.drop_eq_nil_of_le h) h4
    unfold DReader.serve
    simp only [h1]
    rw [if_neg (by omega)]
    have hl : ((d.decompressed.drop d.position).take (min (d.decompressed.length - d.position) n)).length =
        min (d.decompressed.length - d.position) n := by simp
    refine ⟨[], ?_, by simp, .inl ⟨s, rfl, h2, h3⟩, ?_, ?_, Nat.le_refl _, ?_⟩
    · simp only [DReader.left, pollBytes, List.flatten_nil, List.append_nil]
      rw [← List.drop_drop, List.take_append_drop]
    · intro _ e
      rw [pollBytes] at e
      rw [e] at hl
      simp at hl
      omega
    · intro e
      simp only [Poll.ready.injEq] at e
      rw [e] at hl
      simp at hl
      omega
    · rw [pollBytes, hl]; omega
  | cons x ds ih =>
    intro k d s h1 h2 h3 h4
    rcases Nat.lt_or_ge d.position d.decompressed.length with hp | hp
    · unfold DReader.serve
      simp only [h1]
      rw [if_neg (by omega)]
      have hl : ((d.decompressed.drop d.position).take (min (d.decompressed.length - d.position) n)).length =
          min (d.decompressed.length - d.position) n := by simp
      refine ⟨x :: ds, ?_, by simp, .inl ⟨s, rfl, h2, h3⟩, ?_, ?_, Nat.le_refl _, ?_⟩
      · simp only [DReader.left, pollBytes]
        rw [← List.append_assoc, ← List.drop_drop, List.take_append_drop]
      · intro _ e
        rw [pollBytes] at e
        rw [e] at hl
        simp at hl
        omega
      · intro e
        simp only [Poll.ready.injEq] at e
        rw [e] at hl
        simp at hl
        omega
      · rw [pollBytes, hl]; omega
    · have hleft : d.left (x :: ds) = x ++ ds.flatten := by
        simp [DReader.left, List.drop_eq_nil_of_le hp]
      cases k with
      | zero =>
        have e : DReader.serve lz n 0 d = (.pending, { d with inner := none, future := some s }) := by
          unfold DReader.serve
          simp only [h1]
          rw [if_pos hp]
        rw [e]
        refine ⟨x :: ds, rfl, by simp, .inr ⟨s, rfl, rfl, hp, h3⟩, ?_, by simp, Nat.le_refl _, by simp [pollBytes]⟩
        intro h; simp at h
      | succ k =>
        cases h3 with
        | cons hf hs =>
          rename_i f s'
          have e : DReader.serve lz n (k + 1) d = DReader.serve lz n k ⟨some s', x, 0, none⟩ := by
            conv => lhs; unfold DReader.serve
            simp only [h1]
            rw [if_pos hp, finish_frame hf]
          rw [e]
          have hleft' : d.left (x :: ds) = DReader.left ⟨some s', x, 0, none⟩ ds := by
            rw [hleft]; simp [DReader.left]
          obtain ⟨ds', g1, g2, g3, g4, g5, g6, g7⟩ := ih k ⟨some s', x, 0, none⟩ s' rfl rfl hs (by rw [← hleft']; exact h4)
          exact ⟨ds', by rw [hleft']; exact g1, g2, g3, fun h => g4 (by simpa using h), g5, by simp; omega, g7⟩

/-- One poll while content is left: it hands out the next bytes (or nothing), never an error. -/
theorem poll_spec {lz : Lz4} (rest : Bytes) (ds : List Bytes) (n k : Nat) (d : DReader)
    (hi : d.Inv lz ds rest) (hne : d.left ds ≠ []) :
    ∃ ds', d.left ds = pollBytes (d.poll lz n k).1 ++ (d.poll lz n k).2.left ds' ∧
      (d.poll lz n k).1 ≠ .error ∧ (d.poll lz n k).2.Inv lz ds' rest ∧
      (0 < n → ds.length ≤ k → pollBytes (d.poll lz n k).1 ≠ []) ∧
      (0 < n → (d.poll lz n k).1 ≠ .ready []) ∧ ds'.length ≤ ds.length ∧
      (pollBytes (d.poll lz n k).1).length ≤ n := by
  rcases Nat.eq_zero_or_pos n with rfl | hn
  · exact ⟨ds, rfl, by simp [DReader.poll], hi, by simp, by simp, Nat.le_refl _, by simp [DReader.poll, pollBytes]⟩
  rcases hi with ⟨s, h1, h2, h3⟩ | ⟨s, h1, h2, hp, h3⟩
  · have e : d.poll lz n k = DReader.serve lz n k d := by
      unfold DReader.poll
      rw [if_neg (by omega), h2]
    rw [e]
    obtain ⟨ds', g1, g2, g3, g4, g5, g6, g7⟩ := serve_spec hn rest ds k d s h1 h2 h3 hne
    exact ⟨ds', g1, g2, g3, fun _ => g4, fun _ => g5, g6, g7⟩
  · cases ds with
    | nil => simp [DReader.left, List.drop_eq_nil_of_le hp] at hne
    | cons x ds =>
      cases k with
      | zero =>
        have e : d.poll lz n 0 = (.pending, d) := by
          unfold DReader.poll
          rw [if_neg (by omega), h2]
        rw [e]
        exact ⟨x :: ds, rfl, by simp, .inr ⟨s, h1, h2, hp, h3⟩, fun _ h => by simp at h, by simp, Nat.le_refl _, by simp [pollBytes]⟩
      | succ k =>
        cases h3 with
        | cons hf hs =>
          rename_i f s'
          have e : d.poll lz n (k + 1) = DReader.serve lz n k ⟨some s', x, 0, none⟩ := by
            unfold DReader.poll
            rw [if_neg (by omega), h2]
            simp only
            rw [finish_frame hf]
          have hleft' : d.left (x :: ds) = DReader.left ⟨some s', x, 0, none⟩ ds := by
            simp [DReader.left, List.drop_eq_nil_of_le hp]
          rw [e]
          obtain ⟨ds', g1, g2, g3, g4, g5, g6, g7⟩ :=
            serve_spec hn rest ds k ⟨some s', x, 0, none⟩ s' rfl rfl hs (by rw [← hleft']; exact hne)
          exact ⟨ds', by rw [hleft']; exact g1, g2, g3, fun _ h => g4 (by simpa using h), fun _ => g5, by simp; omega, g7⟩

theorem polls_spec {lz : Lz4} (rest : Bytes) : ∀ (qs : List (Nat × Nat)) (ds : List Bytes) (d : DReader),
    d.Inv lz ds rest →
    (∃ ds', d.left ds = (d.polls lz qs).1.flatMap pollBytes ++ (d.polls lz qs).2.left ds' ∧
      (d.polls lz qs).2.Inv lz ds' rest ∧ ds'.length ≤ ds.length ∧ Poll.error ∉ (d.polls lz qs).1) ∨
    (∃ i, i < qs.length ∧ d.left ds = ((d.polls lz (qs.take i)).1).flatMap pollBytes ∧
      Poll.error ∉ (d.polls lz (qs.take i)).1) := by
  intro qs
  induction qs with
  | nil => intro ds d h; exact .inl ⟨ds, rfl, h, Nat.le_refl _, by simp [DReader.polls]⟩
  | cons q qs ih =>
    intro ds d h
    obtain ⟨n, k⟩ := q
    by_cases hne : d.left ds = []
    · exact .inr ⟨0, by simp, by simpa [DReader.polls] using hne, by simp [DReader.polls]⟩
    · obtain ⟨ds1, g1, g2, g3, _, _, g6, _⟩ := poll_spec rest ds n k d h hne
      rcases ih ds1 _ g3 with ⟨ds', h1, h2, h3, h4⟩ | ⟨i, h1, h2, h4⟩
      · refine .inl ⟨ds', ?_, h2, by omega, ?_⟩
        · simp only [DReader.polls, List.flatMap_cons, List.append_assoc]
          rw [g1, h1]
        · simp only [DReader.polls, List.mem_cons, not_or]
          exact ⟨fun e => g2 e.symm, h4⟩
      · refine .inr ⟨i + 1, by simpa using h1, ?_, ?_⟩
        · simp only [List.take_succ_cons, DReader.polls, List.flatMap_cons]
          rw [g1, h2]
        · simp only [List.take_succ_cons, DReader.polls, List.mem_cons, not_or]
          exact ⟨fun e => g2 e.symm, h4⟩

theorem polls_append (lz : Lz4) (qs rs : List (Nat × Nat)) (d : DReader) :
    d.polls lz (qs ++ rs) = ((d.polls lz qs).1 ++ ((d.polls lz qs).2.polls lz rs).1,
      ((d.polls lz qs).2.polls lz rs).2) := by
  induction qs generalizing d with
  | nil => rfl
  | cons q qs ih =>
    obtain ⟨n, k⟩ := q
    simp only [List.cons_append, DReader.polls, ih]

/-- C44: over any number of frames, with any buffer sizes and any timing of the frames' arrival, what
has been handed out so far is a beginning of the concatenation of the frames' contents, for as long as
it has not handed out all of it; no poll before that fails. -/
theorem C44_seamless (lz : Lz4) (s : Bytes) (ds : List Bytes) (rest : Bytes) (hf : Frames lz s ds rest)
    (qs : List (Nat × Nat)) :
    let out := ((DReader.new s).polls lz qs).1
    (out.flatMap pollBytes).take ds.flatten.length = ds.flatten.take (out.flatMap pollBytes).length ∧
      (Poll.error ∈ out → ds.flatten.length ≤ (out.flatMap pollBytes).length) := by
  have hi : (DReader.new s).Inv lz ds rest := .inl ⟨s, rfl, rfl, hf⟩
  have hl : (DReader.new s).left ds = ds.flatten := rfl
  rcases polls_spec rest qs ds _ hi with ⟨ds', h1, _, _, h4⟩ | ⟨i, h1, h2, h4⟩
  · rw [hl] at h1
    refine ⟨?_, fun h => absurd h h4⟩
    rw [h1, List.take_left, List.take_of_length_le]
    rw [List.length_append]; omega
  · rw [hl] at h2
    have e : qs = qs.take i ++ qs.drop i := (List.take_append_drop i qs).symm
    have : ((DReader.new s).polls lz qs).1 = ((DReader.new s).polls lz (qs.take i)).1 ++
        (((DReader.new s).polls lz (qs.take i)).2.polls lz (qs.drop i)).1 := by
      conv => lhs; rw [e, polls_append]
    simp only [this, List.flatMap_append, ← h2]
    refine ⟨?_, fun _ => by rw [List.length_append]; omega⟩
    rw [List.take_left, List.take_of_length_le (by rw [List.length_append]; omega)]

/-- C44: reading always makes progress: when content is left and its frames have arrived, a poll with
room hands out at least one byte and at most as many as fit, and it never reports the end of the
stream (an empty read) early, whatever was read before. -/
theorem C44_progress (lz : Lz4) (s : Bytes) (ds : List Bytes) (rest : Bytes) (hf : Frames lz s ds rest)
    (qs : List (Nat × Nat))
    (hmore : (((DReader.new s).polls lz qs).1.flatMap pollBytes).length < ds.flatten.length)
    (n k : Nat) (hn : 0 < n) :
    let r := (((DReader.new s).polls lz qs).2.poll lz n k).1
    r ≠ .error ∧ r ≠ .ready [] ∧ (pollBytes r).length ≤ n ∧ (ds.length ≤ k → pollBytes r ≠ []) := by
  have hi : (DReader.new s).Inv lz ds rest := .inl ⟨s, rfl, rfl, hf⟩
  have hl : (DReader.new s).left ds = ds.flatten := rfl
  rcases polls_spec rest qs ds _ hi with ⟨ds', h1, h2, h3, h4⟩ | ⟨i, h1, h2, h4⟩
  · have hne : ((DReader.new s).polls lz qs).2.left ds' ≠ [] := by
      intro e
      rw [hl, e] at h1
      rw [h1] at hmore
      simp at hmore
    obtain ⟨_, _, g2, _, g4, g5, _, g7⟩ := poll_spec rest ds' n k _ h2 hne
    exact ⟨g2, g5 hn, g7, fun h => g4 hn (by omega)⟩
  · exfalso
    rw [hl] at h2
    have e : qs = qs.take i ++ qs.drop i := (List.take_append_drop i qs).symm
    have : ((DReader.new s).polls lz qs).1 = ((DReader.new s).polls lz (qs.take i)).1 ++
        (((DReader.new s).polls lz (qs.take i)).2.polls lz (qs.drop i)).1 := by
      conv => lhs; rw [e, polls_append]
    rw [this, List.flatMap_append, ← h2] at hmore
    simp at hmore
    omega

/-- Three frames, one of them empty. -/
def exStream : Bytes :=
  frame exLz lz4Byte [7, 1, 2, 3] 3 ++ (frame exLz lz4Byte [7] 0 ++ (frame exLz lz4Byte [7, 4] 1 ++ [9]))
theorem exFrames : Frames exLz exStream [[1, 2, 3], [], [4]] [9] :=
  .cons (frame_isFrame exLz [7, 1, 2, 3] [1, 2, 3] (by decide) (by decide) rfl)
    (.cons (frame_isFrame exLz [7] [] (by decide) (by decide) rfl)
      (.cons (frame_isFrame exLz [7, 4] [4] (by decide) (by decide) rfl) (.nil _)))

example := C44_seamless exLz exStream _ _ exFrames [(2, 1), (5, 0), (5, 0), (5, 9)]
example : ((DReader.new exStream).polls exLz [(2, 1), (5, 0), (5, 0), (5, 9)]).1 =
    [.ready [1, 2], .ready [3], .pending, .ready [4]] := by decide

end Klick
