import Verif.Codec
import Verif.IoLemmas
import Verif.Spec.Column
/-
Helper lemmas about the column codecs.
-/
namespace Klick
open Spec

/-! ### generic list machinery -/

theorem Res.mapL_ok_of_forall {α β : Type} {f : α → Res β} {g : α → β} {xs : List α}
    (h : ∀ x ∈ xs, f x = .ok (g x)) : Res.mapL f xs = .ok (xs.map g) := by
  induction xs with
  | nil => rfl
  | cons x xs ih =>
    simp only [Res.mapL, h x (by simp), Res.bind_ok, ih (fun y hy => h y (by simp [hy])), List.map_cons]

/-- Item-wise round trip lifts to a list of items. -/
theorem rep_mapL {α β : Type} {f : α → Res Bytes} {r : Rd β} {g : α → β} {xs : List α}
    (h : ∀ x ∈ xs, ∃ b, f x = .ok b ∧ ∀ rest, r (b ++ rest) = .ok (g x, rest)) :
    ∃ bss, Res.mapL f xs = .ok bss ∧
      ∀ rest, Rd.rep xs.length r (bss.flatten ++ rest) = .ok (xs.map g, rest) := by
  induction xs with
  | nil => exact ⟨[], rfl, fun rest => rfl⟩
  | cons x xs ih =>
    obtain ⟨b, hb, hr⟩ := h x (by simp)
    obtain ⟨bss, hbs, hrs⟩ := ih (fun y hy => h y (by simp [hy]))
    refine ⟨b :: bss, ?_, ?_⟩
    · simp only [Res.mapL, hb, hbs, Res.bind_ok]
    · intro rest
      simp only [List.length_cons, Rd.rep, List.flatten_cons, List.append_assoc]
      rw [Rd.bind_run_ok (hr _), Rd.bind_run_ok (hrs _)]
      rfl

/-- Reading back a list of fixed encodings. -/
theorem rep_map {α β : Type} {f : α → Bytes} {r : Rd β} {g : α → β} (xs : List α)
    (h : ∀ x ∈ xs, ∀ rest, r (f x ++ rest) = .ok (g x, rest)) (rest : Bytes) :
    Rd.rep xs.length r ((xs.map f).flatten ++ rest) = .ok (xs.map g, rest) := by
  induction xs with
  | nil => rfl
  | cons x xs ih =>
    simp only [List.length_cons, Rd.rep, List.map_cons, List.flatten_cons, List.append_assoc]
    rw [Rd.bind_run_ok (h x (by simp) _), Rd.bind_run_ok (ih (fun y hy => h y (by simp [hy])))]
    rfl

theorem rep_length {α : Type} {n : Nat} {r : Rd α} {s s' : Bytes} {xs : List α}
    (h : Rd.rep n r s = .ok (xs, s')) : xs.length = n := by
  induction n generalizing s s' xs with
  | zero => simp only [Rd.rep, Rd.pure_apply, Res.ok.injEq, Prod.mk.injEq] at h; simp [← h.1]
  | succ n ih =>
    simp only [Rd.rep, Rd.bind_eq_ok] at h
    obtain ⟨a, s1, _, as, s2, h2, h3⟩ := h
    simp only [Rd.pure_apply, Res.ok.injEq, Prod.mk.injEq] at h3
    rw [← h3.1]
    simp [ih h2]

theorem rep_ne_panic {α : Type} {r : Rd α} (hr : ∀ s, r s ≠ .panic) (n : Nat) (s : Bytes) :
    Rd.rep n r s ≠ .panic := by
  induction n generalizing s with
  | zero => simp [Rd.rep]
  | succ n ih =>
    intro h
    simp only [Rd.rep, Rd.bind_eq_panic] at h
    rcases h with h | ⟨a, s', _, h | ⟨as, s'', _, h⟩⟩
    · exact hr _ h
    · exact ih _ h
    · simp at h

@[simp] theorem guardRows_le {α : Type} {rows : Nat} (h : rows ≤ 2 ^ 30) (body : Rd α) :
    guardRows rows body = body := by
  unfold guardRows
  rw [if_neg (by simp only [maxStringSize]; omega)]

@[simp] theorem Rd.lift_ok {α : Type} (a : α) (s : Bytes) : Rd.lift (.ok a) s = .ok (a, s) := rfl

/-! ### 256-bit and other byte-array layouts -/

theorem readExact_be {n w : Nat} (hw : w = 8 * n) (x : BitVec w) (rest : Bytes) :
    (readExact n >>= fun buf => (pure (BitVec.ofNat w (unBe buf)) : Rd (BitVec w)))
      (be n x.toNat ++ rest) = .ok (x, rest) := by
  rw [Rd.bind_run_ok (readExact_append _ rest (by simp [be]))]
  have := readLe_le hw x rest
  unfold readLe at this
  rw [Rd.bind_run_ok (readExact_append _ rest (le_length n _))] at this
  simpa [unBe, be] using this

theorem ofNat_unLe_le {n w : Nat} (hw : w = 8 * n) (x : BitVec w) :
    BitVec.ofNat w (unLe (le n x.toNat)) = x := by
  have := readLe_le hw x []
  unfold readLe at this
  rw [Rd.bind_run_ok (readExact_append _ [] (le_length n _))] at this
  simpa using this

/-! ### scalars -/

/-- Types handled by `SizedSerializer`/`SizedDeserializer`. -/
def Ty.isSized : Ty → Bool
  | .string | .fixedString _ | .array _ | .tuple _ | .point | .ring | .polygon | .multiPolygon
  | .nullable _ | .map _ _ | .lowCardinality _ => false
  | _ => true

/-- Types whose column writer substitutes the default for NULL. -/
def Ty.isScalar : Ty → Bool
  | .string | .fixedString _ => true
  | t => t.isSized

theorem serCol_sized {cfg : Cfg} {t : Ty} (h : t.isSized = true) (vs : List Value) :
    serCol cfg t vs = serSized cfg t vs := by
  cases t <;> first | rfl | cases h

theorem deCol_sized {cfg : Cfg} {t : Ty} (h : t.isSized = true) (n : Nat) :
    deCol cfg t n = guardRows n (deSized cfg t n) := by
  cases t <;> first | rfl | cases h

theorem uuid_join (x : BitVec 128) :
    ((BitVec.ofNat 64 (unLe (le 8 (x >>> 64).toNat))).setWidth 128 <<< 64) |||
      (BitVec.ofNat 64 (unLe (le 8 x.toNat))).setWidth 128 = x := by
  rw [unLe_le, unLe_le]
  apply BitVec.eq_of_toNat_eq
  have hx := x.isLt
  simp only [BitVec.toNat_or, BitVec.toNat_shiftLeft, BitVec.toNat_setWidth, BitVec.toNat_ofNat,
    BitVec.toNat_ushiftRight, Nat.shiftRight_eq_div_pow, Nat.shiftLeft_eq]
  have e : (256 : Nat) ^ 8 = 2 ^ 64 := by decide
  rw [e]
  have h1 : x.toNat / 2 ^ 64 < 2 ^ 64 := by omega
  rw [Nat.mod_eq_of_lt h1, Nat.mod_eq_of_lt h1,
    Nat.mod_eq_of_lt (by omega : x.toNat / 2 ^ 64 < 2 ^ 128),
    Nat.mod_eq_of_lt (by omega : x.toNat / 2 ^ 64 * 2 ^ 64 < 2 ^ 128)]
  have h2 : x.toNat % 2 ^ 64 % 2 ^ 64 % 2 ^ 128 = x.toNat % 2 ^ 64 := by omega
  rw [h2, Nat.mul_comm, ← Nat.two_pow_add_eq_or_of_lt (by omega)]
  omega

/-- One fixed-width value round-trips. -/
theorem sized1_roundtrip {cfg : Cfg} {t : Ty} (hs : t.isSized = true) (hw : WellFormed cfg t)
    {v : Value} (hv : Storable cfg t v) :
    ∃ b, serSized1 cfg v = .ok b ∧ ∀ rest, deSized1 cfg t (b ++ rest) = .ok (canon t v, rest) := by
  cases t <;> first
    | cases hs; done
    | skip
  case int8 =>
    simp only [Storable] at hv
    rcases hv with ⟨x, rfl⟩ | ⟨x, rfl⟩ <;>
      exact ⟨_, rfl, fun rest => Rd.bind_run_ok (readLe_le (by decide) x rest)⟩
  case int256 =>
    simp only [Storable] at hv
    obtain ⟨x, rfl⟩ := hv
    refine ⟨_, rfl, fun rest => ?_⟩
    show (readExact 32 >>= _) _ = _
    rw [Rd.bind_run_ok (readExact_append _ rest (by simp [be]))]
    simp [be, unBe, ofNat_unLe_le (n := 32) (w := 256) (by decide), canon]
  case uint256 =>
    simp only [Storable] at hv
    obtain ⟨x, rfl⟩ := hv
    refine ⟨_, rfl, fun rest => ?_⟩
    show (readExact 32 >>= _) _ = _
    rw [Rd.bind_run_ok (readExact_append _ rest (by simp [be]))]
    simp [be, unBe, ofNat_unLe_le (n := 32) (w := 256) (by decide), canon]
  case decimal256 =>
    simp only [Storable] at hv
    obtain ⟨x, rfl⟩ := hv
    refine ⟨_, rfl, fun rest => ?_⟩
    show (readExact 32 >>= _) _ = _
    rw [Rd.bind_run_ok (readExact_append _ rest (by simp [be]))]
    simp [be, unBe, ofNat_unLe_le (n := 32) (w := 256) (by decide), canon]
  case ipv6 =>
    simp only [Storable] at hv
    obtain ⟨x, rfl⟩ := hv
    refine ⟨_, rfl, fun rest => ?_⟩
    show (readExact 16 >>= _) _ = _
    rw [Rd.bind_run_ok (readExact_append _ rest (by simp [be]))]
    simp [be, unBe, ofNat_unLe_le (n := 16) (w := 128) (by decide), canon]
  case bfloat16 =>
    cases hw with
    | bfloat16 hb =>
    simp only [Storable] at hv
    obtain ⟨x, rfl⟩ := hv
    refine ⟨le 2 x.toNat, by simp [serSized1, hb], fun rest => ?_⟩
    show (readLe 2 16 >>= _) _ = _
    rw [Rd.bind_run_ok (readLe_le (by decide) x rest), if_pos hb]
    rfl
  case uuid =>
    simp only [Storable] at hv
    obtain ⟨x, rfl⟩ := hv
    refine ⟨_, rfl, fun rest => ?_⟩
    show (readLe 8 64 >>= fun n1 => readLe 8 64 >>= fun n2 => _) _ = _
    unfold readLe
    rw [List.append_assoc]
    simp only [Rd.bind_apply]
    rw [readExact_append _ _ (le_length 8 _)]
    simp only [Res.bind_ok, Rd.pure_apply]
    rw [readExact_append _ _ (le_length 8 _)]
    simp only [Res.bind_ok, canon]
    rw [uuid_join]
  all_goals
    simp only [Storable] at hv
    obtain ⟨x, rfl⟩ := hv
    exact ⟨_, rfl, fun rest => Rd.bind_run_ok (readLe_le (by decide) x rest)⟩

/-- A default exists for sized types and is storable. -/
theorem default_sized {cfg : Cfg} {t : Ty} (hs : t.isSized = true) (hw : WellFormed cfg t) :
    ∃ d, t.defaultValue cfg = .ok d ∧ Storable cfg t d ∧ d.isNull = false := by
  cases t <;> first
    | cases hs; done
    | skip
  case bfloat16 =>
    cases hw with
    | bfloat16 hb => exact ⟨_, by simp [Ty.defaultValue, hb]; rfl, by simp [Storable], rfl⟩
  all_goals
    exact ⟨_, rfl, by simp [Storable], rfl⟩

/-! ### strings -/

theorem isByte_iff (v : Value) : v.isByte = true ↔ ByteValue v := by
  constructor
  · intro h
    cases v <;> first | exact .inl ⟨_, rfl⟩ | exact .inr ⟨_, rfl⟩ | cases h
  · rintro (⟨x, rfl⟩ | ⟨x, rfl⟩) <;> rfl

theorem mapL_asByte {xs : List Value} (h : ∀ x ∈ xs, ByteValue x) :
    Res.mapL asByte xs = .ok (xs.map byteOf) := by
  apply Res.mapL_ok_of_forall
  intro x hx
  rcases h x hx with ⟨y, rfl⟩ | ⟨y, rfl⟩ <;> rfl

theorem takeWhile_append_replicate_zero (b : Bytes) (k : Nat) :
    (b ++ List.replicate k 0#8).takeWhile (fun x => x != 0#8) = b.takeWhile (fun x => x != 0#8) := by
  induction b with
  | nil =>
    cases k with
    | zero => rfl
    | succ k => simp [List.replicate_succ]
  | cons x b ih =>
    simp only [List.cons_append, List.takeWhile_cons, ih]

theorem emitFixed_length (n : Nat) (b : Bytes) : (emitBytes (.fixedString n) b).length = n := by
  simp only [emitBytes]
  split
  · simp; omega
  · simp; omega

theorem emitFixed_cut (n : Nat) (b : Bytes) :
    cutAtNul (emitBytes (.fixedString n) b) = (b.take n).takeWhile (fun x => x != 0#8) := by
  simp only [emitBytes, cutAtNul]
  split
  · rfl
  · rw [takeWhile_append_replicate_zero, List.take_of_length_le (by omega)]

theorem fixed1_roundtrip (n : Nat) (b rest : Bytes) :
    (readExact n >>= fun b => (pure (.string (cutAtNul b)) : Rd Value))
      (emitBytes (.fixedString n) b ++ rest) =
      .ok (.string ((b.take n).takeWhile (fun x => x != 0#8)), rest) := by
  rw [Rd.bind_run_ok (readExact_append _ rest (emitFixed_length n b))]
  simp [emitFixed_cut]

theorem string1_roundtrip (b rest : Bytes) (h : b.length ≤ 2 ^ 30) :
    (readString >>= fun b => (pure (.string b) : Rd Value))
      (emitBytes .string b ++ rest) = .ok (.string b, rest) := by
  show (readString >>= _) (writeString b ++ rest) = _
  rw [Rd.bind_run_ok (readString_write b rest (by simpa [maxStringSize] using h))]
  rfl

theorem storable_not_null {cfg : Cfg} {t : Ty} (ht : t.isScalar = true) {v : Value}
    (h : Storable cfg t v) : v.isNull = false := by
  cases v with
  | null =>
    exfalso
    cases t <;> first
      | cases ht; done
      | (simp [Storable] at h; done)
  | _ => rfl

theorem justify_of_not_null {cfg : Cfg} {t : Ty} {v : Value} (h : v.isNull = false) :
    v.justifyNull cfg t = .ok v := by
  simp [Value.justifyNull, h]

/-- What a scalar column reads back for a value that may be NULL. -/
def readBack (cfg : Cfg) (t : Ty) (v : Value) : Value :=
  if v.isNull then (match t.defaultValue cfg with | .ok d => canon t d | _ => .null) else canon t v

/-- A column of scalars, possibly with NULLs (as under `Nullable` or in a dictionary), is written and
read back with NULLs replaced by the default. -/
theorem scalar_col {cfg : Cfg} {t : Ty} (ht : t.isScalar = true) (hw : WellFormed cfg t)
    {vs : List Value} (hv : ∀ v ∈ vs, v = .null ∨ Storable cfg t v) (hn : vs.length ≤ 2 ^ 30) :
    ∃ b, serCol cfg t vs = .ok b ∧
      ∀ rest, deCol cfg t vs.length (b ++ rest) = .ok (vs.map (readBack cfg t), rest) := by
  by_cases hs : t.isSized = true
  · rw [serCol_sized hs, deCol_sized hs, guardRows_le hn]
    unfold serSized deSized
    obtain ⟨bss, h1, h2⟩ := rep_mapL (f := fun v => v.justifyNull cfg t >>= serSized1 cfg)
      (r := deSized1 cfg t) (g := readBack cfg t) (xs := vs) (by
        intro v hvm
        rcases hv v hvm with rfl | h
        · obtain ⟨d, hd1, hd2, hd3⟩ := default_sized hs hw
          obtain ⟨b, hb1, hb2⟩ := sized1_roundtrip hs hw hd2
          refine ⟨b, ?_, ?_⟩
          · simp [Value.justifyNull, Value.isNull, hd1, hb1]
          · intro rest
            simp [readBack, Value.isNull, hd1, hb2]
        · obtain ⟨b, hb1, hb2⟩ := sized1_roundtrip hs hw h
          have hnn := storable_not_null ht h
          refine ⟨b, ?_, ?_⟩
          · simp [justify_of_not_null hnn, hb1]
          · intro rest
            simp [readBack, hnn, hb2])
    refine ⟨bss.flatten, by rw [h1]; rfl, h2⟩
  · cases t <;> first
      | (exact absurd rfl hs)
      | cases ht; done
      | skip
    case string =>
      show ∃ b, serStrings cfg .string vs = .ok b ∧ ∀ rest, guardRows _ (deStrings _) _ = _
      rw [guardRows_le hn]
      unfold serStrings deStrings
      obtain ⟨bss, h1, h2⟩ := rep_mapL (f := fun v => v.justifyNull cfg .string >>= serString1 .string)
        (r := (readString >>= fun b => (pure (.string b) : Rd Value)))
        (g := readBack cfg .string) (xs := vs) (by
          intro v hvm
          rcases hv v hvm with rfl | h
          · exact ⟨emitBytes .string [], rfl, fun rest => string1_roundtrip [] rest (by simp)⟩
          · have hnn := storable_not_null ht h
            simp only [Storable] at h
            rcases h with ⟨b, rfl, hb⟩ | ⟨xs, rfl, hb, hx⟩
            · exact ⟨emitBytes .string b, rfl, fun rest => string1_roundtrip b rest hb⟩
            · refine ⟨emitBytes .string (xs.map byteOf), ?_, fun rest => ?_⟩
              · simp [justify_of_not_null hnn, serString1, mapL_asByte hx]
              · exact string1_roundtrip _ rest (by simpa using hb))
      exact ⟨bss.flatten, by rw [h1]; rfl, h2⟩
    case fixedString n =>
      show ∃ b, serStrings cfg (.fixedString n) vs = .ok b ∧
        ∀ rest, guardRows _ (deFixed n _) _ = _
      rw [guardRows_le hn]
      unfold serStrings deFixed
      rw [if_neg (show ¬ n > maxAlloc by cases hw; unfold maxAlloc; omega)]
      obtain ⟨bss, h1, h2⟩ := rep_mapL
        (f := fun v => v.justifyNull cfg (.fixedString n) >>= serString1 (.fixedString n))
        (r := (readExact n >>= fun b => (pure (.string (cutAtNul b)) : Rd Value)))
        (g := readBack cfg (.fixedString n)) (xs := vs) (by
          intro v hvm
          rcases hv v hvm with rfl | h
          · exact ⟨emitBytes (.fixedString n) [], rfl, fun rest => fixed1_roundtrip n [] rest⟩
          · have hnn := storable_not_null ht h
            simp only [Storable] at h
            rcases h with ⟨b, rfl⟩ | ⟨xs, rfl, hx⟩
            · exact ⟨emitBytes (.fixedString n) b, rfl, fun rest => fixed1_roundtrip n b rest⟩
            · refine ⟨emitBytes (.fixedString n) (xs.map byteOf), ?_, fun rest => ?_⟩
              · simp [justify_of_not_null hnn, serString1, mapL_asByte hx]
              · exact fixed1_roundtrip n _ rest)
      exact ⟨bss.flatten, by rw [h1]; rfl, h2⟩

end Klick
