import Verif.Io
/-
Helper lemmas about the wire primitives.
-/
namespace Klick

theorem readExact_append (bs rest : Bytes) {n : Nat} (h : bs.length = n) :
    readExact n (bs ++ rest) = .ok (bs, rest) := by
  subst h
  unfold readExact
  simp

theorem readExact_ok {n : Nat} {s bs s' : Bytes} (h : readExact n s = .ok (bs, s')) :
    s = bs ++ s' ∧ bs.length = n := by
  unfold readExact at h
  split at h
  · simp at h
    obtain ⟨h1, h2⟩ := h
    subst h1 h2
    simp
    omega
  · cases h

theorem readExact_ne_panic (n : Nat) (s : Bytes) : readExact n s ≠ .panic := by
  unfold readExact; split <;> simp

@[simp] theorem le_length (n x : Nat) : (le n x).length = n := by
  induction n generalizing x with
  | zero => rfl
  | succ n ih => simp [le, ih]

theorem unLe_le (n x : Nat) : unLe (le n x) = x % 256 ^ n := by
  induction n generalizing x with
  | zero => simp [le, unLe, Nat.mod_one]
  | succ n ih =>
    simp only [le, unLe, ih, BitVec.toNat_ofNat]
    rw [show (256 : Nat) ^ (n + 1) = 256 * 256 ^ n from by rw [Nat.pow_succ, Nat.mul_comm],
      Nat.mod_mul]

theorem unLe_lt (bs : Bytes) : unLe bs < 256 ^ bs.length := by
  induction bs with
  | nil => simp [unLe]
  | cons b bs ih =>
    simp only [unLe, List.length_cons]
    have := b.isLt
    rw [Nat.pow_succ]
    omega

theorem le_unLe (bs : Bytes) : le bs.length (unLe bs) = bs := by
  induction bs with
  | nil => rfl
  | cons b bs ih =>
    simp only [unLe, List.length_cons, le]
    have := b.isLt
    have h1 : (b.toNat + 256 * unLe bs) / 256 = unLe bs := by omega
    rw [h1, ih]
    congr 1
    apply BitVec.eq_of_toNat_eq
    simp
    omega

theorem readLe_le {n w : Nat} (hw : w = 8 * n) (x : BitVec w) (rest : Bytes) :
    readLe n w (le n x.toNat ++ rest) = .ok (x, rest) := by
  unfold readLe
  rw [Rd.bind_run_ok (readExact_append _ rest (le_length n _))]
  simp only [Rd.pure_apply, unLe_le]
  congr 2
  apply BitVec.eq_of_toNat_eq
  subst hw
  have h : 256 ^ n = 2 ^ (8 * n) := by rw [Nat.pow_mul]
  rw [h, BitVec.toNat_ofNat]
  have := x.isLt
  rw [Nat.mod_mod, Nat.mod_eq_of_lt this]

theorem readU64_le (x : Nat) (hx : x < 2 ^ 64) (rest : Bytes) :
    readU64 (writeU64 x ++ rest) = .ok (x, rest) := by
  unfold readU64 writeU64
  rw [Rd.bind_run_ok (readExact_append _ rest (le_length 8 _))]
  simp only [Rd.pure_apply, unLe_le]
  rw [Nat.mod_eq_of_lt (by simpa using hx)]

theorem readU64_ok {s s' : Bytes} {x : Nat} (h : readU64 s = .ok (x, s')) :
    x < 2 ^ 64 ∧ s.length = s'.length + 8 := by
  unfold readU64 at h
  rw [Rd.bind_eq_ok] at h
  obtain ⟨bs, s1, h1, h2⟩ := h
  obtain ⟨h3, h4⟩ := readExact_ok h1
  simp at h2
  obtain ⟨h5, h6⟩ := h2
  subst h6 h5 h3
  constructor
  · have := unLe_lt bs
    rw [h4] at this
    simpa using this
  · simp; omega

theorem readU64_ne_panic (s : Bytes) : readU64 s ≠ .panic := by
  unfold readU64
  intro h
  rw [Rd.bind_eq_panic] at h
  rcases h with h | ⟨a, s', _, h2⟩
  · exact readExact_ne_panic _ _ h
  · simp at h2

/-! ### variable-length integers -/

theorem byte_and_80 (b : Byte) : (b &&& 0x80#8 = 0#8) ↔ b.toNat < 128 := by
  revert b; decide

theorem byte_and_7f (b : Byte) : (b &&& 0x7F#8).toNat = b.toNat % 128 := by
  revert b; decide

theorem or_shift (out x k : Nat) (h : out < 2 ^ k) : out ||| (x <<< k) = out + x * 2 ^ k := by
  rw [Nat.shiftLeft_eq, Nat.or_comm, Nat.mul_comm x]
  rw [← Nat.two_pow_add_eq_or_of_lt h]
  omega

theorem or_80 (x : Nat) (h : x < 128) : x ||| 0x80 = x + 128 := by
  have := or_shift x 1 7 (by simpa using h)
  simpa using this

theorem and_7f_nat (x : Nat) : x &&& 0x7F = x % 128 := by
  have := Nat.and_two_pow_sub_one_eq_mod x 7
  simpa using this

/-- The byte emitted by one round of the writer, in arithmetic form. -/
theorem writeVarUintLoop_succ (fuel v : Nat) :
    writeVarUintLoop (fuel + 1) v =
      BitVec.ofNat 8 (v % 128 + if v > 127 then 128 else 0) ::
        (if v / 128 = 0 then [] else writeVarUintLoop fuel (v / 128)) := by
  simp only [writeVarUintLoop, and_7f_nat, Nat.shiftRight_eq_div_pow]
  have hlt : v % 128 < 128 := Nat.mod_lt _ (by decide)
  by_cases h : v > 127
  · have : v > 0x7F := h
    simp only [this, if_true, or_80 _ hlt]
  · have : ¬ v > 0x7F := h
    simp only [this, if_false]; rfl

theorem readVarUintLoop_succ (fuel i out : Nat) (b : Byte) (s : Bytes) (h : out < 2 ^ (7 * i)) :
    readVarUintLoop (fuel + 1) i out (b :: s) =
      if b.toNat < 128 then .ok (out + b.toNat % 128 * 2 ^ (7 * i), s)
      else readVarUintLoop fuel (i + 1) (out + b.toNat % 128 * 2 ^ (7 * i)) s := by
  simp only [readVarUintLoop]
  rw [Rd.bind_run_ok (show readU8 (b :: s) = .ok (b, s) from rfl)]
  simp only [byte_and_7f, or_shift _ _ _ h, byte_and_80]
  split <;> rfl

theorem readVarUintLoop_write (fuel i out v : Nat) (rest : Bytes) (hf : 0 < fuel)
    (ho : out < 2 ^ (7 * i)) :
    readVarUintLoop fuel i out (writeVarUintLoop fuel v ++ rest) =
      .ok (out + (v % 2 ^ (7 * fuel)) * 2 ^ (7 * i), rest) := by
  induction fuel generalizing i out v with
  | zero => omega
  | succ fuel ih =>
    rw [writeVarUintLoop_succ]
    simp only [List.cons_append]
    rw [readVarUintLoop_succ _ _ _ _ _ ho]
    have hm : v % 128 < 128 := Nat.mod_lt _ (by decide)
    have hb : (BitVec.ofNat 8 (v % 128 + if v > 127 then 128 else 0)).toNat
        = v % 128 + if v > 127 then 128 else 0 := by
      simp only [BitVec.toNat_ofNat]
      apply Nat.mod_eq_of_lt
      split <;> omega
    rw [hb]
    by_cases hv : v > 127
    · simp only [hv, if_true]
      have hd : v / 128 ≠ 0 := by omega
      simp only [hd, if_false]
      have e1 : (v % 128 + 128) % 128 = v % 128 := by omega
      rw [if_neg (by omega), e1]
      have ho' : out + v % 128 * 2 ^ (7 * i) < 2 ^ (7 * (i + 1)) := by
        have : 2 ^ (7 * (i + 1)) = 128 * 2 ^ (7 * i) := by
          rw [Nat.mul_add, Nat.pow_add, Nat.mul_comm]
        rw [this]
        have : (v % 128 + 1) * 2 ^ (7 * i) ≤ 128 * 2 ^ (7 * i) :=
          Nat.mul_le_mul_right _ (by omega)
        rw [Nat.add_mul] at this
        omega
      by_cases hf0 : fuel = 0
      · subst hf0
        simp [readVarUintLoop, writeVarUintLoop]
      · rw [ih (i + 1) _ _ (by omega) ho']
        congr 2
        have e2 : 2 ^ (7 * (fuel + 1)) = 128 * 2 ^ (7 * fuel) := by
          rw [Nat.mul_add, Nat.pow_add, Nat.mul_comm]
        have e3 : 2 ^ (7 * (i + 1)) = 128 * 2 ^ (7 * i) := by
          rw [Nat.mul_add, Nat.pow_add, Nat.mul_comm]
        rw [e2, e3, Nat.mod_mul, Nat.add_mul, Nat.add_assoc]
        congr 2
        rw [Nat.mul_comm 128 (v / 128 % 2 ^ (7 * fuel)), Nat.mul_assoc]
    · have hd : v / 128 = 0 := by omega
      simp only [hv, if_false, hd, if_true, Nat.add_zero, List.nil_append]
      rw [if_pos hm]
      have hp : 128 ≤ 2 ^ (7 * (fuel + 1)) := by
        have : 2 ^ 7 ≤ 2 ^ (7 * (fuel + 1)) := Nat.pow_le_pow_right (by decide) (by omega)
        simpa using this
      rw [Nat.mod_eq_of_lt (by omega : v < 2 ^ (7 * (fuel + 1))), Nat.mod_mod]
      rw [Nat.mod_eq_of_lt (by omega : v < 128)]

theorem readVarUint_write_mod (v : Nat) (rest : Bytes) :
    readVarUint (writeVarUint v ++ rest) = .ok (v % 2 ^ 63, rest) := by
  unfold readVarUint writeVarUint
  rw [readVarUintLoop_write 9 0 0 v rest (by decide) (by decide)]
  simp

theorem readVarUint_write (v : Nat) (hv : v < 2 ^ 63) (rest : Bytes) :
    readVarUint (writeVarUint v ++ rest) = .ok (v, rest) := by
  rw [readVarUint_write_mod, Nat.mod_eq_of_lt hv]

theorem writeVarUintLoop_length_le (fuel v : Nat) : (writeVarUintLoop fuel v).length ≤ fuel := by
  induction fuel generalizing v with
  | zero => simp [writeVarUintLoop]
  | succ fuel ih =>
    simp only [writeVarUintLoop, List.length_cons]
    split
    · simp
    · have := ih (v >>> 7); omega

/-- Full characterisation of the reader on an arbitrary stream. -/
theorem readVarUintLoop_spec (fuel i out : Nat) (s : Bytes) :
    (∃ n ds, readVarUintLoop fuel i out s = .ok (n, ds) ∧
        ∃ c, s = c ++ ds ∧ c.length ≤ fuel ∧ (0 < fuel → 0 < c.length)) ∨
      (readVarUintLoop fuel i out s = .err .io ∧ s.length < fuel ∧
        ∀ b ∈ s, 128 ≤ b.toNat) := by
  induction fuel generalizing i out s with
  | zero => exact .inl ⟨out, s, rfl, [], rfl, by simp, by simp⟩
  | succ fuel ih =>
    cases s with
    | nil => exact .inr ⟨rfl, by simp, by simp⟩
    | cons b s =>
      have step : readVarUintLoop (fuel + 1) i out (b :: s) =
          if b &&& 0x80#8 = 0#8 then .ok (out ||| ((b &&& 0x7F#8).toNat <<< (7 * i)), s)
          else readVarUintLoop fuel (i + 1) (out ||| ((b &&& 0x7F#8).toNat <<< (7 * i))) s := by
        simp only [readVarUintLoop]
        rw [Rd.bind_run_ok (show readU8 (b :: s) = .ok (b, s) from rfl)]
        split <;> rfl
      rw [step]
      split
      · exact .inl ⟨_, s, rfl, [b], rfl, by simp, by simp⟩
      · rename_i hb
        rw [byte_and_80] at hb
        rcases ih (i + 1) (out ||| ((b &&& 0x7F#8).toNat <<< (7 * i))) s with
          ⟨n, ds, h1, c, h2, h3, h4⟩ | ⟨h1, h2, h3⟩
        · exact .inl ⟨n, ds, h1, b :: c, by simp [h2], by simp [h3], by simp⟩
        · refine .inr ⟨h1, by simp; omega, ?_⟩
          intro x hx
          rcases List.mem_cons.1 hx with rfl | hx
          · omega
          · exact h3 x hx

theorem readVarUint_ne_panic (s : Bytes) : readVarUint s ≠ .panic := by
  unfold readVarUint
  rcases readVarUintLoop_spec 9 0 0 s with ⟨n, ds, h, _⟩ | ⟨h, _⟩ <;> simp [h]

theorem readVarUint_ok {s s' : Bytes} {n : Nat} (h : readVarUint s = .ok (n, s')) :
    ∃ c, s = c ++ s' ∧ 1 ≤ c.length ∧ c.length ≤ 9 := by
  unfold readVarUint at h
  rcases readVarUintLoop_spec 9 0 0 s with ⟨n', ds, h1, c, h2, h3, h4⟩ | ⟨h1, _⟩
  · rw [h1] at h
    injection h with h
    injection h with _ h
    subst h
    exact ⟨c, h2, h4 (by decide), h3⟩
  · rw [h1] at h; cases h

/-! ### strings -/

theorem readString_write (v rest : Bytes) (hv : v.length ≤ maxStringSize) :
    readString (writeString v ++ rest) = .ok (v, rest) := by
  unfold readString writeString
  rw [List.append_assoc]
  have hl : v.length < 2 ^ 63 := by
    have : maxStringSize < 2 ^ 63 := by decide
    omega
  rw [Rd.bind_run_ok (readVarUint_write _ hl _)]
  rw [if_neg (by omega)]
  split
  · rename_i h
    have : v = [] := List.length_eq_zero_iff.1 h
    subst this; rfl
  · exact readExact_append _ _ rfl

theorem readString_ne_panic (s : Bytes) : readString s ≠ .panic := by
  unfold readString
  intro h
  rw [Rd.bind_eq_panic] at h
  rcases h with h | ⟨n, s', _, h⟩
  · exact readVarUint_ne_panic _ h
  · split at h
    · simp at h
    · split at h
      · simp at h
      · exact readExact_ne_panic _ _ h

theorem utf8Encode_data (s : Str) :
    s.utf8Encode.data.toList = s.flatMap String.utf8EncodeChar := by
  simp [List.utf8Encode]

theorem utf8Decode_encode (s : Str) : utf8Decode (utf8Encode s) = some s := by
  unfold utf8Decode utf8Encode
  rw [← utf8Encode_data]
  have h : (List.map UInt8.ofBitVec (List.map UInt8.toBitVec s.utf8Encode.data.toList)).toArray
      = s.utf8Encode.data := by
    simp [List.map_map, Function.comp_def]
  rw [h]
  have := List.utf8Decode?_utf8Encode (l := s)
  rw [show (ByteArray.mk s.utf8Encode.data) = s.utf8Encode from rfl, this]
  simp

theorem utf8Decode_eq_some {b : Bytes} {s : Str} (h : utf8Decode b = some s) :
    b = utf8Encode s := by
  unfold utf8Decode at h
  rw [Option.map_eq_some_iff] at h
  obtain ⟨a, h1, h2⟩ := h
  subst h2
  have hs : (ByteArray.utf8Decode? ⟨(b.map UInt8.ofBitVec).toArray⟩).isSome := by simp [h1]
  have := ByteArray.utf8Encode_get_utf8Decode? (h := hs)
  unfold utf8Encode
  rw [← utf8Encode_data]
  simp only [h1, Option.get_some] at this
  rw [this]
  simp [List.map_map, Function.comp_def]

theorem utf8Decode_iff (b : Bytes) (s : Str) : utf8Decode b = some s ↔ b = utf8Encode s :=
  ⟨utf8Decode_eq_some, fun h => h ▸ utf8Decode_encode s⟩

theorem readUtf8String_write (s : Str) (rest : Bytes)
    (h : (utf8Encode s).length ≤ maxStringSize) :
    readUtf8String (writeString (utf8Encode s) ++ rest) = .ok (s, rest) := by
  unfold readUtf8String
  rw [Rd.bind_run_ok (readString_write _ _ h), utf8Decode_encode]
  rfl

theorem readUtf8String_ne_panic (s : Bytes) : readUtf8String s ≠ .panic := by
  unfold readUtf8String
  intro h
  rw [Rd.bind_eq_panic] at h
  rcases h with h | ⟨n, s', _, h⟩
  · exact readString_ne_panic _ h
  · cases hd : utf8Decode n <;> rw [hd] at h <;> simp at h

end Klick
