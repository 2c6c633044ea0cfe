import Verif.ReserveLemmas
import Verif.Props.Compress
/-
C107: what a server can make the client reserve.
-/
namespace Klick.Props
open Spec

/-- The readers with the notes read exactly what the readers of `Codec` and `Compress` read. -/
theorem C107_readers (cfg : Cfg) (t : Ty) (n : Nat) (lz : Lz4) (method : Byte) (s : Bytes) :
    (deColTr cfg t n s).2 = deCol cfg t n s ∧ (readFrameTr lz method s).2 = readFrame lz method s ∧ (readStringTr s).2 = readString s :=
  ⟨congrFun (deColTr_run t n) s, congrFun (readFrameTr_run lz method) s, congrFun readStringTr_run s⟩

/-- C107, one reservation: whatever the bytes and the announced number of rows, and whether the column can be read or not, no single reservation made
for a column is larger than 2^30 or, when that is more, the largest `FixedString` in the type. -/
theorem C107_one_partial (cfg : Cfg) (t : Ty) (n : Nat) (s : Bytes) : ∀ r ∈ (deColTr cfg t n s).1, r ≤ max (2 ^ 30) (widest t) :=
  deColTr_single (Nat.le_max_left _ _) t (Nat.le_max_right _ _) n s

/-- C107, frames: for a compressed frame one reservation is at most 2^30 and one at most 2^32, and there are no more than these two. -/
theorem C107_frame_partial (lz : Lz4) (method : Byte) (s : Bytes) :
    (readFrameTr lz method s).1 = [] ∨ (∃ a, a ≤ 2 ^ 30 ∧ (readFrameTr lz method s).1 = [a]) ∨
      ∃ a b, a ≤ 2 ^ 30 ∧ b ≤ 2 ^ 32 ∧ (readFrameTr lz method s).1 = [a, b] := by
  have hp : ∀ {α β : Type} (x : Rd α) (f : α → Tr β) (s : Bytes), ((Tr.plain x >>= f) s).1 = [] ∨ ∃ a s', ((Tr.plain x >>= f) s).1 = (f a s').1 := by
    intro α β x f s
    have e : (Tr.plain x >>= f) s = Tr.bind (Tr.plain x) f s := rfl
    rw [e]
    unfold Tr.bind Tr.plain
    rcases x s with ⟨a, s'⟩ | e | _
    · exact .inr ⟨a, s', rfl⟩
    · exact .inl rfl
    · exact .inl rfl
  unfold readFrameTr
  rcases hp _ _ s with h | ⟨hi, s1, h⟩ <;> rw [h]
  · exact .inl rfl
  rcases hp _ _ s1 with h | ⟨lo, s2, h⟩ <;> rw [h]
  · exact .inl rfl
  dsimp only
  rcases hp _ _ s2 with h | ⟨typeByte, s3, h⟩ <;> rw [h]
  · exact .inl rfl
  split
  · exact .inl rfl
  rcases hp _ _ s3 with h | ⟨size, s4, h⟩ <;> rw [h]
  · exact .inl rfl
  split
  · exact .inl rfl
  rename_i hsize
  have hsize : size.toNat ≤ 2 ^ 30 := by unfold maxCompressionSize at hsize; omega
  split
  · exact .inl rfl
  rcases hp _ _ s4 with h | ⟨rawSize, s5, h⟩ <;> rw [h]
  · exact .inl rfl
  right
  have hn : ∀ {β : Type} (k : Nat) (f : Unit → Tr β) (s : Bytes), ((Tr.note k >>= f) s).1 = k :: (f () s).1 := fun _ _ _ => rfl
  rw [hn]
  rcases hp (readExact (size.toNat - 9)) _ s5 with h | ⟨body, s6, h⟩ <;> rw [h]
  · exact .inl ⟨_, hsize, rfl⟩
  split
  · exact .inl ⟨_, hsize, rfl⟩
  · exact .inr ⟨_, _, hsize, (by have := rawSize.isLt; omega), rfl⟩

/-- C107, all together: for a type without empty tuples and `FixedString(0)`, what is reserved for a column that can be read is at most the type's
weight for each byte taken; and in any case at most that for each byte received and the largest single reservation once more. -/
theorem C107_total_partial (cfg : Cfg) (t : Ty) (ht : roomy t = true) (n : Nat) (s : Bytes) :
    (∀ vs s', deCol cfg t n s = .ok (vs, s') → ∃ taken, s = taken ++ s' ∧ (deColTr cfg t n s).1.sum ≤ weight t * taken.length) ∧
    (deColTr cfg t n s).1.sum ≤ weight t * (s.length + max (2 ^ 30) (widest t)) := by
  obtain ⟨h1, h2⟩ := deColTr_charged (cfg := cfg) (M := max (2 ^ 30) (widest t)) (Nat.le_max_left _ _) t ht (Nat.le_max_right _ _) n s
  refine ⟨fun vs s' h => ?_, by rw [Nat.mul_add]; exact h2⟩
  rw [← (C107_readers cfg t n exLz 0#8 s).1] at h
  obtain ⟨c, e, _, hc⟩ := h1 vs s' h
  exact ⟨c, e, hc⟩

/-- What is reserved for columns of these types is in proportion to what has been received, up to a fixed allowance `a`. -/
def InProportion (types : Ty → Prop) (a : Nat) : Prop :=
  ∃ k, ∀ (cfg : Cfg) (t : Ty) (n : Nat) (s : Bytes), types t → (deColTr cfg t n s).1.sum ≤ a + k * s.length

/-- C107 in full is false with any allowance below 2^63: a type's text names the width of a `FixedString`, and room for one is reserved before a byte
of it has been received. -/
theorem C107_fixed_false (a : Nat) (ha : a < 2 ^ 63 - 1) : ¬ InProportion (fun t => roomy t = true) a := by
  rintro ⟨k, h⟩
  have h := h cfgDebug (.fixedString (a + 1)) 1 [] (by simp [roomy])
  have e : (deColTr cfgDebug (.fixedString (a + 1)) 1 []).1.sum = 1 + (a + 1) := by
    have hn : ¬ a + 1 > maxAlloc := by unfold maxAlloc; omega
    show (guardTr 1 (deFixedTr (a + 1) 1) []).1.sum = _
    unfold guardTr deFixedTr
    rw [if_neg (by decide), if_neg hn]
    rfl
  rw [e, List.length_nil, Nat.mul_zero] at h
  omega

/-- C107 in full is false for bytes as well, with any allowance below 2^30: room for every announced row is reserved before any has come. -/
theorem C107_numbers_false (a : Nat) (ha : a < 2 ^ 30) : ¬ InProportion (fun t => t = .uint8) a := by
  rintro ⟨k, h⟩
  have h := h cfgDebug .uint8 (a + 1) [] rfl
  have e : (deColTr cfgDebug .uint8 (a + 1) []).1.sum = a + 1 := by
    rw [deColTr_sized rfl]
    unfold guardTr deSizedTr
    rw [if_neg (by unfold maxStringSize; omega)]
    rfl
  rw [e, List.length_nil, Nat.mul_zero] at h
  omega

/-- C107, frames: 25 bytes with a right checksum make the client reserve 2^32. -/
theorem C107_frame_false (lz : Lz4) : ∃ s, s.length = 25 ∧ (readFrameTr lz lz4Byte s).1 = [9, 2 ^ 32] := by
  let h : BitVec 128 := lz.hash (lz4Byte :: (le 4 9 ++ le 4 (2 ^ 32 - 1) ++ []))
  let hi : BitVec 64 := (h >>> 64).setWidth 64
  let lo : BitVec 64 := h.setWidth 64
  refine ⟨le 8 hi.toNat ++ (le 8 lo.toNat ++ (lz4Byte :: (le 4 (9 : BitVec 32).toNat ++ (le 4 (BitVec.ofNat 32 (2 ^ 32 - 1)).toNat ++ [])))),
    by simp, ?_⟩
  have hp : ∀ {α β : Type} {x : Rd α} {f : α → Tr β} {s s' : Bytes} {a : α}, x s = .ok (a, s') → ((Tr.plain x >>= f) s) = f a s' := by
    intro α β x f s s' a hx
    show Tr.bind (Tr.plain x) f s = _
    unfold Tr.bind Tr.plain
    rw [hx]
    rfl
  have e : ((hi.setWidth 128 <<< 64) ||| lo.setWidth 128) = h := by
    simp only [hi, lo]
    apply BitVec.eq_of_getElem_eq
    intro i hi'
    simp only [BitVec.getElem_or, BitVec.getElem_shiftLeft, BitVec.getElem_setWidth, BitVec.getLsbD_setWidth, BitVec.getLsbD_ushiftRight]
    by_cases hi : i < 64
    · simp [hi, BitVec.getLsbD_eq_getElem hi']
    · have h1 : i - 64 < 64 := by omega
      have h2 : 64 + (i - 64) = i := by omega
      simp [hi, h1, h2, BitVec.getLsbD_eq_getElem hi']
  unfold readFrameTr
  rw [hp (readLe_le (n := 8) (w := 64) rfl hi _), hp (readLe_le (n := 8) (w := 64) rfl lo _)]
  dsimp only
  rw [e, hp (s' := _) (a := lz4Byte) rfl, if_neg (by simp)]
  rw [hp (readLe_le (n := 4) (w := 32) rfl (9 : BitVec 32) _), if_neg (by decide), if_neg (by decide), hp (readLe_le (n := 4) (w := 32) rfl _ _)]
  have hn : ∀ {β : Type} (k : Nat) (f : Unit → Tr β) (s : Bytes), ((Tr.note k >>= f) s).1 = k :: (f () s).1 := fun _ _ _ => rfl
  rw [hn, hp (s' := []) (a := []) rfl, if_neg (by simp only [h]; exact fun hh => hh rfl), hn]
  rfl

/-! ### Not vacuous -/

/-- A column of two strings: room for two values, for three bytes and for one. -/
example : (deColTr cfgDebug .string 2 [3, 97, 98, 99, 1, 100, 7]).1 = [2, 3, 1] := rfl
example : deCol cfgDebug .string 2 [3, 97, 98, 99, 1, 100, 7] = .ok ([.string [97, 98, 99], .string [100]], [7]) := rfl
/-- It meets the bounds: six is at most two for each of the six bytes. -/
example := (C107_total_partial cfgDebug .string rfl 2 [3, 97, 98, 99, 1, 100, 7]).1 _ _ rfl
/-- A nullable column cut off: the mask, then the numbers. -/
example : (deColTr cfgDebug (.nullable .uint16) 3 [0, 1, 0, 9, 9]).1 = [3, 3] := rfl
/-- An array of pairs: the offsets grow, the pairs are reserved for their number, the members for each column, the rows at the end. -/
example : (deColTr cfgDebug (.array (.tuple [.uint8, .uint8])) 2 ([1, 0, 0, 0, 0, 0, 0, 0] ++ [3, 0, 0, 0, 0, 0, 0, 0] ++ [1, 2, 3, 4, 5, 6])).1
    = [3, 3, 3, 2] := rfl
example : weight (.array (.tuple [.uint8, .uint8])) = 3 ∧ roomy (.array (.tuple [.uint8, .uint8])) = true := ⟨rfl, rfl⟩

end Klick.Props
