import Verif.Props.ValueEq
import Verif.Props.Numeric
/-
C67, the converse: the words fed to a hasher tell the value.
-/
namespace Klick
open Spec Props

theorem be_inj {w n : Nat} (hw : 2 ^ w = 256 ^ n) (x y : BitVec w) : be n x.toNat = be n y.toNat ↔ x = y := by
  refine ⟨fun h => ?_, fun h => by rw [h]⟩
  have := congrArg unBe h
  rw [unBe_be, unBe_be, Nat.mod_eq_of_lt (hw ▸ x.isLt), Nat.mod_eq_of_lt (hw ▸ y.isLt)] at this
  exact BitVec.eq_of_toNat_eq this

theorem be256_inj (x y : BitVec 256) : be 32 x.toNat = be 32 y.toNat ↔ x = y := be_inj (by decide) x y
theorem be128_inj (x y : BitVec 128) : be 16 x.toNat = be 16 y.toNat ↔ x = y := be_inj (by decide) x y
theorem be32_inj (x y : BitVec 32) : be 4 x.toNat = be 4 y.toNat ↔ x = y := be_inj (by decide) x y

theorem ptHash_inj : ∀ (p q : Pt) (a b : List HashWord), p.hash ++ a = q.hash ++ b → p = q ∧ a = b
  | ⟨x, y⟩, ⟨x', y'⟩, a, b, h => by
    simp only [Pt.hash, List.cons_append, List.nil_append, List.cons.injEq, HashWord.num.injEq, true_and, BitVec.toNat_inj] at h
    obtain ⟨rfl, rfl, rfl⟩ := h
    exact ⟨rfl, rfl⟩

theorem flatten_inj {α : Type} {f : α → List HashWord} (hf : ∀ x y a b, f x ++ a = f y ++ b → x = y ∧ a = b) :
    ∀ (xs ys : List α) (a b : List HashWord), xs.length = ys.length → (xs.map f).flatten ++ a = (ys.map f).flatten ++ b → xs = ys ∧ a = b
  | [], [], _, _, _, h => ⟨rfl, h⟩
  | x :: xs, y :: ys, a, b, hl, h => by
    rw [List.map_cons, List.map_cons, List.flatten_cons, List.flatten_cons, List.append_assoc, List.append_assoc] at h
    obtain ⟨rfl, h'⟩ := hf _ _ _ _ h
    obtain ⟨rfl, h''⟩ := flatten_inj hf xs ys a b (Nat.succ.inj hl) h'
    exact ⟨rfl, h''⟩

theorem hashVec_inj {α : Type} {f : α → List HashWord} (hf : ∀ x y a b, f x ++ a = f y ++ b → x = y ∧ a = b) (xs ys : List α)
    (a b : List HashWord) (h : hashVec f xs ++ a = hashVec f ys ++ b) : xs = ys ∧ a = b := by
  simp only [hashVec, List.cons_append, List.cons.injEq, HashWord.num.injEq, true_and] at h
  exact flatten_inj hf xs ys a b h.1 h.2

mutual
theorem hashRest_inj : ∀ (v w : Value) (a b : List HashWord), v.discr = w.discr → v.hashRest ++ a = w.hashRest ++ b → v = w ∧ a = b
  | .int8 x, w, a, b, hd, h | .int16 x, w, a, b, hd, h | .int32 x, w, a, b, hd, h | .int64 x, w, a, b, hd, h | .int128 x, w, a, b, hd, h
  | .uint8 x, w, a, b, hd, h | .uint16 x, w, a, b, hd, h | .uint32 x, w, a, b, hd, h | .uint64 x, w, a, b, hd, h | .uint128 x, w, a, b, hd, h
  | .float32 x, w, a, b, hd, h | .float64 x, w, a, b, hd, h | .bfloat16 x, w, a, b, hd, h | .decimal32 _ x, w, a, b, hd, h
  | .decimal64 _ x, w, a, b, hd, h | .decimal128 _ x, w, a, b, hd, h | .uuid x, w, a, b, hd, h | .enum8 x, w, a, b, hd, h
  | .enum16 x, w, a, b, hd, h | .ipv4 x, w, a, b, hd, h | .ipv6 x, w, a, b, hd, h | .int256 x, w, a, b, hd, h | .uint256 x, w, a, b, hd, h
  | .decimal256 _ x, w, a, b, hd, h | .string x, w, a, b, hd, h | .null, w, a, b, hd, h | .date x, w, a, b, hd, h | .dateTime _ x, w, a, b, hd, h
  | .dateTime64 _ x _, w, a, b, hd, h => by
    cases w <;> simp only [Value.discr, reduceCtorEq, Nat.reduceEqDiff] at hd
    all_goals
      simp only [Value.hashRest, hash256, List.cons_append, List.nil_append, List.cons.injEq, HashWord.num.injEq, HashWord.raw.injEq,
        HashWord.zone.injEq, true_and, BitVec.toNat_inj, be256_inj, be128_inj, be32_inj] at h
      simp_all
  | .point p, w, a, b, hd, h => by
    cases w <;> simp only [Value.discr, reduceCtorEq, Nat.reduceEqDiff] at hd
    rw [Value.hashRest, Value.hashRest] at h
    obtain ⟨rfl, h'⟩ := ptHash_inj _ _ _ _ h
    exact ⟨rfl, h'⟩
  | .ring p, w, a, b, hd, h => by
    cases w <;> simp only [Value.discr, reduceCtorEq, Nat.reduceEqDiff] at hd
    rw [Value.hashRest, Value.hashRest] at h
    obtain ⟨rfl, h'⟩ := hashVec_inj ptHash_inj _ _ _ _ h
    exact ⟨rfl, h'⟩
  | .polygon p, w, a, b, hd, h => by
    cases w <;> simp only [Value.discr, reduceCtorEq, Nat.reduceEqDiff] at hd
    rw [Value.hashRest, Value.hashRest] at h
    obtain ⟨rfl, h'⟩ := hashVec_inj (hashVec_inj ptHash_inj) _ _ _ _ h
    exact ⟨rfl, h'⟩
  | .multiPolygon p, w, a, b, hd, h => by
    cases w <;> simp only [Value.discr, reduceCtorEq, Nat.reduceEqDiff] at hd
    rw [Value.hashRest, Value.hashRest] at h
    obtain ⟨rfl, h'⟩ := hashVec_inj (hashVec_inj (hashVec_inj ptHash_inj)) _ _ _ _ h
    exact ⟨rfl, h'⟩
  | .array xs, w, a, b, hd, h => by
    cases w <;> simp only [Value.discr, reduceCtorEq, Nat.reduceEqDiff] at hd
    simp only [Value.hashRest, List.cons_append, List.cons.injEq, HashWord.num.injEq, true_and] at h
    obtain ⟨rfl, h'⟩ := hashAll_inj xs _ _ _ h.1 h.2
    exact ⟨rfl, h'⟩
  | .tuple xs, w, a, b, hd, h => by
    cases w <;> simp only [Value.discr, reduceCtorEq, Nat.reduceEqDiff] at hd
    simp only [Value.hashRest, List.cons_append, List.cons.injEq, HashWord.num.injEq, true_and] at h
    obtain ⟨rfl, h'⟩ := hashAll_inj xs _ _ _ h.1 h.2
    exact ⟨rfl, h'⟩
  | .map ks vs, w, a, b, hd, h => by
    cases w <;> simp only [Value.discr, reduceCtorEq, Nat.reduceEqDiff] at hd
    simp only [Value.hashRest, List.append_assoc, List.cons_append, List.cons.injEq, HashWord.num.injEq, true_and] at h
    obtain ⟨rfl, h'⟩ := hashAll_inj ks _ _ _ h.1 h.2
    simp only [List.cons.injEq, HashWord.num.injEq, true_and] at h'
    obtain ⟨rfl, h''⟩ := hashAll_inj vs _ _ _ h'.1 h'.2
    exact ⟨rfl, h''⟩
theorem hashAll_inj : ∀ (vs ws : List Value) (a b : List HashWord), vs.length = ws.length →
    Value.hashAll vs ++ a = Value.hashAll ws ++ b → vs = ws ∧ a = b
  | [], [], _, _, _, h => ⟨rfl, h⟩
  | [], _ :: _, _, _, hl, _ => by simp at hl
  | _ :: _, [], _, _, hl, _ => by simp at hl
  | v :: vs, w :: ws, a, b, hl, h => by
    simp only [Value.hashAll, List.append_assoc, List.cons_append, List.cons.injEq, HashWord.num.injEq, true_and] at h
    obtain ⟨rfl, h'⟩ := hashRest_inj v w _ _ h.1 h.2
    obtain ⟨rfl, h''⟩ := hashAll_inj vs ws _ _ (Nat.succ.inj hl) h'
    exact ⟨rfl, h''⟩
end

/-- **C67**, the other way round: the words fed to a hasher tell the value, bit by bit; no two different values feed it the same, and none the
beginning of what another one feeds it (so keys that are pairs, or follow each other, cannot be confused). -/
theorem C67_hash_tells (v w : Value) :
    (v.hashWords = w.hashWords ↔ v = w) ∧ (∀ a b, v.hashWords ++ a = w.hashWords ++ b → v = w ∧ a = b) := by
  have key : ∀ a b, v.hashWords ++ a = w.hashWords ++ b → v = w ∧ a = b := by
    intro a b h
    simp only [Value.hashWords, List.cons_append, List.cons.injEq, HashWord.num.injEq, true_and] at h
    exact hashRest_inj v w a b h.1 h.2
  exact ⟨⟨fun h => (key [] [] (by rw [h])).1, fun h => by rw [h]⟩, key⟩

/-- Lists in lists: where one ends matters. -/
example : (Value.array [.array [.null], .array []]).hashWords ≠ (Value.array [.array [], .array [.null]]).hashWords :=
  fun h => by have := (C67_hash_tells _ _).1.mp h; simp at this

end Klick
