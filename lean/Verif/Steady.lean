import Verif.Compress
import Verif.Spec.Steady
import Verif.CodecSafe
/-
Readers do not depend on what follows: on a longer input they do the same, unless they ran out of
bytes. Supports C62 and the compressed packet reader.
-/
namespace Klick
open Spec

namespace Spec.Steady
variable {α β : Type}

theorem pure (a : α) : Steady (Pure.pure a : Rd α) := fun _ _ => .inr rfl
theorem fail (e : Err) : Steady (Rd.fail e : Rd α) := fun _ _ => .inr rfl
theorem panic : Steady (Rd.panic : Rd α) := fun _ _ => .inr rfl
theorem lift (r : Res α) : Steady (Rd.lift r) := fun _ _ => by cases r <;> exact .inr rfl

theorem bind {x : Rd α} {f : α → Rd β} (hx : Steady x) (hf : ∀ a, Steady (f a)) : Steady (x >>= f) := by
  intro s t
  rcases hx s t with h | h
  · exact .inl (Rd.bind_run_err h)
  · cases hs : x s with
    | ok p =>
      obtain ⟨a, r⟩ := p
      rw [hs] at h
      rw [Rd.bind_run_ok hs, Rd.bind_run_ok h]
      exact hf a r t
    | err e => rw [hs] at h; rw [Rd.bind_run_err hs, Rd.bind_run_err h]; exact .inr rfl
    | panic => rw [hs] at h; rw [Rd.bind_run_panic hs, Rd.bind_run_panic h]; exact .inr rfl

theorem ite {c : Prop} [Decidable c] {x y : Rd α} (hx : Steady x) (hy : Steady y) :
    Steady (if c then x else y) := by split <;> assumption

theorem rep {x : Rd α} (hx : Steady x) (n : Nat) : Steady (Rd.rep n x) := by
  induction n with
  | zero => exact pure []
  | succ n ih => exact bind hx fun a => bind ih fun as => pure _

theorem readExact (n : Nat) : Steady (readExact n) := by
  intro s t
  unfold Klick.readExact
  by_cases h : n ≤ s.length
  · rw [if_pos h, if_pos (by rw [List.length_append]; omega)]
    refine .inr ?_
    simp [extend, List.take_append_of_le_length h, List.drop_append_of_le_length h]
  · rw [if_neg h]; exact .inl rfl

theorem readU8 : Steady readU8 := by
  intro s t
  cases s with
  | nil => exact .inl rfl
  | cons b s => exact .inr rfl

theorem readLe (n w : Nat) : Steady (readLe n w) := bind (readExact n) fun _ => pure _
theorem readU64 : Steady readU64 := bind (readExact 8) fun _ => pure _

theorem readVarUintLoop (fuel i out : Nat) : Steady (readVarUintLoop fuel i out) := by
  induction fuel generalizing i out with
  | zero => exact pure _
  | succ fuel ih =>
    exact bind readU8 fun b => ite (pure _) (ih _ _)

theorem readVarUint : Steady readVarUint := readVarUintLoop _ _ _
theorem readString : Steady readString :=
  bind readVarUint fun _ => ite (fail _) (ite (pure _) (readExact _))
theorem readUtf8String : Steady readUtf8String :=
  bind readString fun b => by cases utf8Decode b <;> first | exact fail _ | exact pure _

theorem guardRows {n : Nat} {x : Rd α} (hx : Steady x) : Steady (guardRows n x) := ite (fail _) hx

theorem deSized1 (cfg : Cfg) (t : Ty) : Steady (deSized1 cfg t) := by
  cases t <;> first
    | exact bind (readLe _ _) fun _ => pure _
    | exact bind (readExact _) fun _ => pure _
    | exact bind (readLe _ _) fun _ => bind (readLe _ _) fun _ => pure _
    | exact bind (readLe _ _) fun _ => ite (pure _) panic
    | exact panic

theorem deSized (cfg : Cfg) (t : Ty) (n : Nat) : Steady (deSized cfg t n) := rep (deSized1 cfg t) n
theorem deStrings (n : Nat) : Steady (deStrings n) := rep (bind readString fun _ => pure _) n
theorem deFixed (k n : Nat) : Steady (deFixed k n) := by
  unfold Klick.deFixed
  split
  · exact rep panic n
  · exact rep (bind (readExact _) fun _ => pure _) n

theorem deArr (cfg : Cfg) {inner : Nat → Rd (List α)} (h : ∀ n, Steady (inner n)) (n : Nat) :
    Steady (deArr cfg inner n) :=
  ite (pure _) (bind (rep readU64 n) fun _ => bind (h _) fun _ => lift _)

theorem dePts (n : Nat) : Steady (dePts n) :=
  guardRows (bind (rep (readLe _ _) n) fun _ => bind (rep (readLe _ _) n) fun _ => pure _)
theorem deRings (cfg : Cfg) (n : Nat) : Steady (deRings cfg n) := guardRows (deArr cfg dePts n)
theorem dePolygons (cfg : Cfg) (n : Nat) : Steady (dePolygons cfg n) := guardRows (deArr cfg (deRings cfg) n)
theorem deMultiPolygons (cfg : Cfg) (n : Nat) : Steady (deMultiPolygons cfg n) :=
  guardRows (deArr cfg (dePolygons cfg) n)

theorem deMap {k v : Nat → Rd (List Value)} (hk : ∀ n, Steady (k n)) (hv : ∀ n, Steady (v n)) (n : Nat) :
    Steady (deMap k v n) :=
  ite (pure _) (bind (rep readU64 n) fun _ => bind (hk _) fun _ =>
    ite panic (bind (hv _) fun _ => ite panic (lift _)))

theorem lcGlobal {dict : Nat → Rd (List Value)} (h : ∀ n, Steady (dict n)) (c : Bool) (g : Option (List Value)) :
    Steady (if c then (Klick.readU64 >>= fun n => dict n >>= fun d => Pure.pure (some d)) else Pure.pure g :
      Rd (Option (List Value))) :=
  ite (bind readU64 fun _ => bind (h _) fun _ => pure _) (pure _)

theorem lcLoop {dict : Nat → Rd (List Value)} (h : ∀ n, Steady (dict n)) (nullable : Bool) (fuel : Nat) :
    ∀ limit global out, Steady (lcLoop dict nullable fuel limit global out) := by
  induction fuel with
  | zero => intro _ _ _; exact fail _
  | succ fuel ih =>
    intro limit global out
    unfold Klick.lcLoop
    refine ite (pure _) (bind readU64 fun flags => ?_)
    cases lcWidth flags with
    | none => exact fail _
    | some width =>
      refine bind (ite (bind readU64 fun _ => bind (h _) fun _ => pure _) (pure _)) fun _ => ?_
      refine bind (ite (bind readU64 fun _ => h _) (pure _)) fun _ => ?_
      refine bind readU64 fun _ => ?_
      refine bind (guardRows (rep (bind (readExact _) fun _ => pure _) _)) fun _ => ?_
      exact bind (ite (lift _) (pure _)) fun _ => ih _ _ _

end Spec.Steady

/-- More fuel changes nothing once the result is not "out of bytes". -/
theorem fuel_bind {α β : Type} {x : Rd α} {f g : α → Rd β}
    (h : ∀ a s, f a s ≠ .err .io → g a s = f a s) (s : Bytes) (hs : (x >>= f) s ≠ .err .io) :
    (x >>= g) s = (x >>= f) s := by
  cases hx : x s with
  | ok p =>
    obtain ⟨a, r⟩ := p
    rw [Rd.bind_run_ok hx] at hs ⊢
    rw [Rd.bind_run_ok hx]
    exact h a r hs
  | err e => rw [Rd.bind_run_err hx, Rd.bind_run_err hx]
  | panic => rw [Rd.bind_run_panic hx, Rd.bind_run_panic hx]

theorem lcLoop_fuel (dict : Nat → Rd (List Value)) (nullable : Bool) (k : Nat) : ∀ (fuel limit : Nat)
    (global : Option (List Value)) (out : List Value) (s : Bytes),
    lcLoop dict nullable fuel limit global out s ≠ .err .io →
    lcLoop dict nullable (fuel + k) limit global out s = lcLoop dict nullable fuel limit global out s := by
  intro fuel
  induction fuel with
  | zero => intro _ _ _ _ h; exact absurd rfl h
  | succ fuel ih =>
    intro limit global out s h
    rw [show fuel + 1 + k = (fuel + k) + 1 by omega]
    unfold lcLoop at h ⊢
    by_cases hl : limit = 0
    · rw [if_pos hl, if_pos hl]
    · rw [if_neg hl] at h ⊢
      rw [if_neg hl]
      refine fuel_bind (fun flags s h => ?_) s h
      cases hw : lcWidth flags with
      | none => rfl
      | some width =>
        simp only [hw] at h ⊢
        refine fuel_bind (fun _ s h => ?_) s h
        refine fuel_bind (fun _ s h => ?_) s h
        refine fuel_bind (fun _ s h => ?_) s h
        refine fuel_bind (fun _ s h => ?_) s h
        refine fuel_bind (fun _ s h => ?_) s h
        exact ih _ _ _ s h

theorem extend_io {α : Type} {t : Bytes} {r : Res (α × Bytes)} (h : extend t r = .err .io) : r = .err .io := by
  cases r <;> simp_all [extend]

/-- A loop with fuel from the input's length. -/
theorem Spec.Steady.fueled {α : Type} {f : Nat → Rd α} (h1 : ∀ n, Steady (f n))
    (h2 : ∀ n k s, f n s ≠ .err .io → f (n + k) s = f n s) : Steady (fun s => f (s.length + 1) s) := by
  intro s t
  rcases h1 (s.length + 1) s t with h | h
  · exact .inl h
  · by_cases hio : f (s.length + 1) s = .err .io
    · exact .inl hio
    · refine .inr ?_
      have hne : f (s.length + 1) (s ++ t) ≠ .err .io := by
        rw [h]; exact fun e => hio (extend_io e)
      have := h2 (s.length + 1) t.length (s ++ t) hne
      show f ((s ++ t).length + 1) (s ++ t) = _
      rw [List.length_append, show s.length + t.length + 1 = s.length + 1 + t.length by omega, this, h]

theorem Spec.Steady.deLc {dict : Nat → Rd (List Value)} (h : ∀ n, Steady (dict n)) (nullable : Bool) (rows : Nat) :
    Steady (deLc dict nullable rows) :=
  Steady.fueled (f := fun n => Klick.lcLoop dict nullable n rows none []) (fun n => Steady.lcLoop h nullable n _ _ _)
    (fun n k s hs => lcLoop_fuel dict nullable k n rows none [] s hs)

mutual
theorem Spec.Steady.deCol (cfg : Cfg) : ∀ (t : Ty) (n : Nat), Steady (deCol cfg t n)
  | .string, n => guardRows (deStrings n)
  | .fixedString k, n => guardRows (deFixed k n)
  | .array t, n => guardRows (bind (deArr cfg (Steady.deCol cfg t) n) fun _ => pure _)
  | .tuple ts, n => guardRows (bind (Steady.deCols cfg ts n _) fun _ => pure _)
  | .point, n => bind (dePts n) fun _ => pure _
  | .ring, n => bind (deRings cfg n) fun _ => pure _
  | .polygon, n => bind (dePolygons cfg n) fun _ => pure _
  | .multiPolygon, n => bind (deMultiPolygons cfg n) fun _ => pure _
  | .nullable t, n => guardRows (bind (readExact _) fun _ => bind (Steady.deCol cfg t n) fun _ => lift _)
  | .map k v, n => guardRows (deMap (Steady.deCol cfg k) (Steady.deCol cfg v) n)
  | .lowCardinality t, n => by
    have h := Steady.deCol cfg t
    cases t with
    | nullable t => exact guardRows (deLc (Steady.deCol cfg t) true n)
    | _ => exact guardRows (deLc h false n)
  | .int8, n | .int16, n | .int32, n | .int64, n | .int128, n | .int256, n | .uint8, n | .uint16, n | .uint32, n
  | .uint64, n | .uint128, n | .uint256, n | .float32, n | .float64, n | .bfloat16, n | .decimal32 _, n
  | .decimal64 _, n | .decimal128 _, n | .decimal256 _, n | .uuid, n | .date, n | .dateTime _, n
  | .dateTime64 _ _, n | .ipv4, n | .ipv6, n | .enum8 _, n | .enum16 _, n => guardRows (deSized cfg _ n)
theorem Spec.Steady.deCols (cfg : Cfg) : ∀ (ts : List Ty) (n : Nat) (acc : List (List Value)), Steady (deCols cfg ts n acc)
  | [], _, _ => pure _
  | t :: ts, n, _ => bind (Steady.deCol cfg t n) fun _ => bind (lift _) fun _ => Steady.deCols cfg ts n _
end

mutual
theorem Spec.Steady.dePrefix : ∀ t : Ty, Steady (dePrefix t)
  | .array t => Steady.dePrefix t
  | .tuple ts => Steady.dePrefixes ts
  | .nullable t => Steady.dePrefix t
  | .map k v => bind (Steady.dePrefix k) fun _ => Steady.dePrefix v
  | .lowCardinality _ => bind readU64 fun _ => ite (fail _) (pure _)
  | .point | .ring | .polygon | .multiPolygon | .string | .fixedString _
  | .int8 | .int16 | .int32 | .int64 | .int128 | .int256 | .uint8 | .uint16 | .uint32
  | .uint64 | .uint128 | .uint256 | .float32 | .float64 | .bfloat16 | .decimal32 _
  | .decimal64 _ | .decimal128 _ | .decimal256 _ | .uuid | .date | .dateTime _
  | .dateTime64 _ _ | .ipv4 | .ipv6 | .enum8 _ | .enum16 _ => pure _
theorem Spec.Steady.dePrefixes : ∀ ts : List Ty, Steady (dePrefixes ts)
  | [] => pure _
  | t :: ts => bind (Steady.dePrefix t) fun _ => Steady.dePrefixes ts
end

theorem Spec.Steady.readInfoLoop (fuel : Nat) : ∀ i, Steady (readInfoLoop fuel i) := by
  induction fuel with
  | zero => intro _; exact fail _
  | succ fuel ih =>
    intro i
    exact bind readVarUint fun _ => ite (pure _) (ite (bind readU8 fun _ => ih _) (ite (bind (readLe _ _) fun _ => ih _) (fail _)))

theorem readInfoLoop_fuel (k : Nat) : ∀ (fuel : Nat) (i : BlockInfo) (s : Bytes),
    readInfoLoop fuel i s ≠ .err .io → readInfoLoop (fuel + k) i s = readInfoLoop fuel i s := by
  intro fuel
  induction fuel with
  | zero => intro _ _ h; exact absurd rfl h
  | succ fuel ih =>
    intro i s h
    rw [show fuel + 1 + k = (fuel + k) + 1 by omega]
    unfold readInfoLoop at h ⊢
    refine fuel_bind (fun f s h => ?_) s h
    by_cases h0 : f = 0
    · rw [if_pos h0, if_pos h0]
    rw [if_neg h0] at h ⊢
    rw [if_neg h0]
    by_cases h1 : f = 1
    · rw [if_pos h1] at h ⊢
      rw [if_pos h1]
      exact fuel_bind (fun _ s h => ih _ s h) s h
    rw [if_neg h1] at h ⊢
    rw [if_neg h1]
    by_cases h2 : f = 2
    · rw [if_pos h2] at h ⊢
      rw [if_pos h2]
      exact fuel_bind (fun _ s h => ih _ s h) s h
    rw [if_neg h2, if_neg h2]

theorem Spec.Steady.readInfo : Steady readInfo :=
  Steady.fueled (f := fun n => Klick.readInfoLoop n BlockInfo.default) (fun n => Steady.readInfoLoop n _)
    (fun n k s hs => readInfoLoop_fuel k n _ s hs)

theorem Spec.Steady.readColumn (cfg : Cfg) (rows : Nat) (b : Block) : Steady (readColumn cfg rows b) := by
  unfold Klick.readColumn
  refine bind readUtf8String fun _ => bind readUtf8String fun _ => bind (lift _) fun _ => ?_
  split
  · exact bind (bind (Steady.dePrefix _) fun _ => Steady.deCol cfg _ _) fun _ => pure _
  · exact bind (pure _) fun _ => pure _

theorem Spec.Steady.readColumns (cfg : Cfg) (rows n : Nat) : ∀ b, Steady (readColumns cfg rows n b) := by
  induction n with
  | zero => intro _; exact pure _
  | succ n ih => intro b; exact bind (Steady.readColumn cfg rows b) fun _ => ih _

theorem Spec.Steady.readBlock (cfg : Cfg) (revision : Nat) : Steady (readBlock cfg revision) :=
  bind (ite Steady.readInfo (pure _)) fun _ => bind readVarUint fun _ => bind readVarUint fun _ =>
    Steady.readColumns cfg _ _ _

theorem Spec.Steady.readFrame (lz : Lz4) (m : Byte) : Steady (readFrame lz m) :=
  bind (readLe _ _) fun _ => bind (readLe _ _) fun _ => bind readU8 fun _ => ite (fail _)
    (bind (readLe _ _) fun _ => ite (fail _) (ite (fail _) (bind (readLe _ _) fun _ =>
      bind (readExact _) fun _ => ite (fail _) (lift _))))

/-- An exact decoding of `bytes` in front of anything leaves every proper beginning of `bytes` short of
bytes. -/
theorem Spec.Steady.truncated {α : Type} {x : Rd α} (hx : Steady x) {bytes p q : Bytes} {a : α}
    (h : x bytes = .ok (a, [])) (hb : bytes = p ++ q) (hq : q ≠ []) : x p = .err .io := by
  rcases hx p q with h1 | h1
  · exact h1
  · rw [← hb, h] at h1
    cases hp : x p with
    | ok r =>
      obtain ⟨a', r⟩ := r
      rw [hp] at h1
      simp only [extend, Res.ok.injEq, Prod.mk.injEq] at h1
      have := h1.2
      simp only [List.nil_eq, List.append_eq_nil_iff] at this
      exact absurd this.2 hq
    | err e => rw [hp] at h1; cases h1
    | panic => rw [hp] at h1; cases h1

end Klick
