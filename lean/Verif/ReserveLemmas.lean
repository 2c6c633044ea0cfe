import Verif.Reserve
import Verif.RoomMain
import Verif.Spec.Reserve
/-
What the instrumented readers of `Reserve` reserve (C107).
-/
namespace Klick
open Spec

namespace Tr
variable {α β : Type}

theorem run_bind (x : Tr α) (f : α → Tr β) : (x >>= f).run = (x.run >>= fun a => (f a).run) := by
  funext s
  show (Tr.bind x f s).2 = Rd.bind x.run (fun a => (f a).run) s
  unfold Tr.bind Rd.bind run
  rcases h : (x s).2 with ⟨a, s'⟩ | e | _ <;> rfl

@[simp] theorem run_plain (x : Rd α) : (plain x).run = x := rfl
@[simp] theorem run_pure (a : α) : (Pure.pure a : Tr α).run = Pure.pure a := rfl
theorem run_note (n : Nat) (f : Unit → Rd β) : ((note n).run >>= f) = f () := rfl

theorem bind_assoc {γ : Type} (x : Tr α) (f : α → Tr β) (g : β → Tr γ) : ((x >>= f) >>= g) = (x >>= fun a => f a >>= g) := by
  funext s
  show Tr.bind (Tr.bind x f) g s = Tr.bind x (fun a => Tr.bind (f a) g) s
  unfold Tr.bind
  rcases (x s).2 with ⟨a, s'⟩ | e | _
  · dsimp only
    rcases (f a s').2 with ⟨b, s''⟩ | e | _ <;> simp [List.append_assoc]
  · rfl
  · rfl

theorem run_ite {p : Prop} [Decidable p] (x y : Tr α) : (if p then x else y).run = if p then x.run else y.run := by split <;> rfl

theorem run_rep (n : Nat) (x : Tr α) : (rep n x).run = Rd.rep n x.run := by
  induction n with
  | zero => rfl
  | succ n ih => simp only [rep, Rd.rep, run_bind, run_pure, ih]

theorem run_guard (n : Nat) (x : Tr α) : (guardTr n x).run = guardRows n x.run := run_ite _ _

end Tr

/-! ### Leaving the notes out -/

theorem readStringTr_run : readStringTr.run = readString := by
  unfold readStringTr readString
  simp only [Tr.run_bind, Tr.run_plain, Tr.run_ite, Tr.run_pure, Tr.run_note]

theorem deStringsTr_run (n : Nat) : (deStringsTr n).run = deStrings n := by
  unfold deStringsTr deStrings
  simp only [Tr.run_note, Tr.run_rep, Tr.run_bind, Tr.run_pure, readStringTr_run]

theorem deFixedTr_run (k n : Nat) : (deFixedTr k n).run = deFixed k n := by
  unfold deFixedTr deFixed
  simp only [Tr.run_note, Tr.run_rep, Tr.run_bind, Tr.run_pure, Tr.run_ite, Tr.run_plain]

theorem deArrTr_run {α : Type} {cfg : Cfg} {inner : Nat → Tr (List α)} {inner' : Nat → Rd (List α)} (h : ∀ n, (inner n).run = inner' n)
    (n : Nat) : (deArrTr cfg inner n).run = deArr cfg inner' n := by
  unfold deArrTr deArr
  simp only [Tr.run_note, Tr.run_bind, Tr.run_pure, Tr.run_ite, Tr.run_plain, h]

theorem dePtsTr_run (n : Nat) : (dePtsTr n).run = dePts n := by
  unfold dePtsTr dePts
  simp only [Tr.run_guard, Tr.run_note, Tr.run_bind, Tr.run_pure, Tr.run_plain]

theorem deRingsTr_run (cfg : Cfg) (n : Nat) : (deRingsTr cfg n).run = deRings cfg n := by
  unfold deRingsTr deRings
  rw [Tr.run_guard, deArrTr_run dePtsTr_run]

theorem dePolygonsTr_run (cfg : Cfg) (n : Nat) : (dePolygonsTr cfg n).run = dePolygons cfg n := by
  unfold dePolygonsTr dePolygons
  rw [Tr.run_guard, deArrTr_run (deRingsTr_run cfg)]

theorem deMultiPolygonsTr_run (cfg : Cfg) (n : Nat) : (deMultiPolygonsTr cfg n).run = deMultiPolygons cfg n := by
  unfold deMultiPolygonsTr deMultiPolygons
  rw [Tr.run_guard, deArrTr_run (dePolygonsTr_run cfg)]

theorem deMapTr_run {key value : Nat → Tr (List Value)} {key' value' : Nat → Rd (List Value)} (h1 : ∀ n, (key n).run = key' n)
    (h2 : ∀ n, (value n).run = value' n) (n : Nat) : (deMapTr key value n).run = deMap key' value' n := by
  unfold deMapTr deMap
  simp only [Tr.run_note, Tr.run_bind, Tr.run_pure, Tr.run_ite, Tr.run_plain, h1, h2]

theorem lcLoopTr_run {dict : Nat → Tr (List Value)} {dict' : Nat → Rd (List Value)} (h : ∀ n, (dict n).run = dict' n) (nullable : Bool)
    (fuel : Nat) : ∀ (limit : Nat) (g : Option (List Value)) (out : List Value),
      (lcLoopTr dict nullable fuel limit g out).run = lcLoop dict' nullable fuel limit g out := by
  induction fuel with
  | zero => intro l g o; rfl
  | succ fuel ih =>
    intro limit g out
    simp only [lcLoopTr, lcLoop, Tr.run_ite, Tr.run_pure, Tr.run_bind, Tr.run_plain]
    congr 2
    funext flags
    cases lcWidth flags with
    | none => rfl
    | some w => simp only [Tr.run_ite, Tr.run_pure, Tr.run_bind, Tr.run_plain, Tr.run_guard, Tr.run_note, ih, h]

theorem deLcTr_run {dict : Nat → Tr (List Value)} {dict' : Nat → Rd (List Value)} (h : ∀ n, (dict n).run = dict' n) (nullable : Bool)
    (n : Nat) : (deLcTr dict nullable n).run = deLc dict' nullable n := by
  funext s
  exact congrFun (lcLoopTr_run h nullable _ _ _ _) s

theorem deColTr_lc_nonnull {cfg : Cfg} {t : Ty} (h : t.isNullable = false) (n : Nat) :
    deColTr cfg (.lowCardinality t) n = guardTr n (deLcTr (deColTr cfg t) false n) := by
  cases t <;> first | rfl | (cases h; done)

theorem deColTr_sized {cfg : Cfg} {t : Ty} (h : t.isSized = true) (n : Nat) :
    deColTr cfg t n = guardTr n (deSizedTr cfg t n) := by
  cases t <;> first | rfl | (cases h; done)

theorem sized_run {cfg : Cfg} {t : Ty} (h : t.isSized = true) (n : Nat) : (deColTr cfg t n).run = deCol cfg t n := by
  rw [deColTr_sized h, deCol_sized h, Tr.run_guard]
  rfl

mutual
theorem deColTr_run {cfg : Cfg} : ∀ (t : Ty) (n : Nat), (deColTr cfg t n).run = deCol cfg t n
  | .string, n => by rw [deColTr, deCol, Tr.run_guard, deStringsTr_run]
  | .fixedString k, n => by rw [deColTr, deCol, Tr.run_guard, deFixedTr_run]
  | .array t, n => by
    simp only [deColTr, deCol, Tr.run_guard, Tr.run_bind, Tr.run_pure, deArrTr_run (deColTr_run t)]
  | .tuple ts, n => by
    simp only [deColTr, deCol, Tr.run_guard, Tr.run_note, Tr.run_bind, Tr.run_pure, deColsTr_run ts]
  | .point, n => by simp only [deColTr, deCol, Tr.run_bind, Tr.run_pure, dePtsTr_run]
  | .ring, n => by simp only [deColTr, deCol, Tr.run_bind, Tr.run_pure, deRingsTr_run]
  | .polygon, n => by simp only [deColTr, deCol, Tr.run_bind, Tr.run_pure, dePolygonsTr_run]
  | .multiPolygon, n => by simp only [deColTr, deCol, Tr.run_bind, Tr.run_pure, deMultiPolygonsTr_run]
  | .nullable t, n => by
    simp only [deColTr, deCol, Tr.run_guard, Tr.run_note, Tr.run_bind, Tr.run_plain, deColTr_run t]
  | .map k v, n => by
    simp only [deColTr, deCol, Tr.run_guard, deMapTr_run (deColTr_run k) (deColTr_run v)]
  | .lowCardinality t, n => by
    by_cases hn : t.isNullable = true
    · match t, hn with
      | .nullable u, _ =>
        simp only [deColTr, deCol, Tr.run_guard, deLcTr_run (deColTr_run u)]
    · have hn := Bool.eq_false_iff.mpr hn
      rw [deColTr_lc_nonnull hn, deCol_lc_nonnull hn, Tr.run_guard, deLcTr_run (deColTr_run t)]
  | .int8, n => sized_run rfl n
  | .int16, n => sized_run rfl n
  | .int32, n => sized_run rfl n
  | .int64, n => sized_run rfl n
  | .int128, n => sized_run rfl n
  | .int256, n => sized_run rfl n
  | .uint8, n => sized_run rfl n
  | .uint16, n => sized_run rfl n
  | .uint32, n => sized_run rfl n
  | .uint64, n => sized_run rfl n
  | .uint128, n => sized_run rfl n
  | .uint256, n => sized_run rfl n
  | .float32, n => sized_run rfl n
  | .float64, n => sized_run rfl n
  | .bfloat16, n => sized_run rfl n
  | .decimal32 _, n => sized_run rfl n
  | .decimal64 _, n => sized_run rfl n
  | .decimal128 _, n => sized_run rfl n
  | .decimal256 _, n => sized_run rfl n
  | .uuid, n => sized_run rfl n
  | .date, n => sized_run rfl n
  | .dateTime _, n => sized_run rfl n
  | .dateTime64 _ _, n => sized_run rfl n
  | .ipv4, n => sized_run rfl n
  | .ipv6, n => sized_run rfl n
  | .enum8 _, n => sized_run rfl n
  | .enum16 _, n => sized_run rfl n
theorem deColsTr_run {cfg : Cfg} : ∀ (ts : List Ty) (n : Nat) (acc : List (List Value)), (deColsTr cfg ts n acc).run = deCols cfg ts n acc
  | [], _, _ => rfl
  | t :: ts, n, acc => by
    simp only [deColsTr, deCols, Tr.run_bind, Tr.run_plain, deColTr_run t, deColsTr_run ts]
end

theorem readFrameTr_run (lz : Lz4) (method : Byte) : (readFrameTr lz method).run = readFrame lz method := by
  unfold readFrameTr readFrame
  simp only [Tr.run_bind, Tr.run_plain, Tr.run_ite, Tr.run_note]

/-! ### One reservation -/

/-- No reservation is larger than `M`. -/
def Single {α : Type} (M : Nat) (x : Tr α) : Prop := ∀ s, ∀ n ∈ (x s).1, n ≤ M

namespace Single
variable {α β : Type} {M : Nat}

theorem plain {x : Rd α} : Single M (Tr.plain x) := fun _ _ h => by cases h

theorem pure {a : α} : Single M (Pure.pure a : Tr α) := fun _ _ h => by cases h

theorem note {n : Nat} (h : n ≤ M) : Single M (Tr.note n) := by
  intro s k hk
  have hk : k ∈ [n] := hk
  rw [List.mem_singleton] at hk
  rw [hk]; exact h

theorem bind {x : Tr α} {f : α → Tr β} (hx : Single M x) (hf : ∀ a, Single M (f a)) : Single M (x >>= f) := by
  intro s n hn
  have hn : n ∈ (Tr.bind x f s).1 := hn
  unfold Tr.bind at hn
  split at hn
  · rcases List.mem_append.mp hn with h | h
    · exact hx _ _ h
    · exact hf _ _ _ h
  · exact hx _ _ hn
  · exact hx _ _ hn

theorem map {x : Tr α} {g : α → β} (hx : Single M x) : Single M (x >>= fun a => Pure.pure (g a)) := bind hx (fun _ => pure)

theorem ite {p : Prop} [Decidable p] {x y : Tr α} (hx : p → Single M x) (hy : ¬ p → Single M y) : Single M (if p then x else y) := by
  split
  · exact hx ‹_›
  · exact hy ‹_›

theorem rep {x : Tr α} (hx : Single M x) (n : Nat) : Single M (Tr.rep n x) := by
  induction n with
  | zero => exact pure
  | succ n ih => exact bind hx (fun a => map ih)

theorem guard {n : Nat} {x : Tr α} (hx : n ≤ maxStringSize → Single M x) : Single M (guardTr n x) :=
  ite (fun _ => plain) (fun h => hx (by omega))

end Single

section
variable {M : Nat} (hM : maxStringSize ≤ M)
include hM

theorem readStringTr_single : Single M readStringTr :=
  Single.bind Single.plain (fun _ => Single.ite (fun _ => Single.plain) (fun _ => Single.ite (fun _ => Single.pure)
    (fun _ => Single.bind (Single.note (by omega)) (fun _ => Single.plain))))

theorem deArrTr_single {α : Type} {cfg : Cfg} {inner : Nat → Tr (List α)} (h : ∀ n, Single M (inner n)) (n : Nat) :
    Single M (guardTr n (deArrTr cfg inner n)) :=
  Single.guard (fun hn => Single.ite (fun _ => Single.pure) (fun _ => Single.bind Single.plain (fun _ => Single.bind (h _)
    (fun _ => Single.bind (Single.note (by omega)) (fun _ => Single.plain)))))

theorem dePtsTr_single (n : Nat) : Single M (dePtsTr n) :=
  Single.guard (fun hn =>
    have hn : n ≤ M := by omega
    Single.bind (Single.note hn) (fun _ => Single.bind (Single.bind (Single.note hn) (fun _ => Single.plain))
      (fun _ => Single.bind (Single.bind (Single.note hn) (fun _ => Single.plain)) (fun _ => Single.pure))))

theorem deMapTr_single {key value : Nat → Tr (List Value)} (h1 : ∀ n, Single M (key n)) (h2 : ∀ n, Single M (value n)) (n : Nat) :
    Single M (guardTr n (deMapTr key value n)) :=
  Single.guard (fun hn =>
    have hn : n ≤ M := by omega
    Single.ite (fun _ => Single.pure) (fun _ => Single.bind (Single.note hn) (fun _ => Single.bind Single.plain (fun _ =>
      Single.bind (h1 _) (fun _ => Single.ite (fun _ => Single.plain) (fun _ => Single.bind (h2 _) (fun _ =>
        Single.ite (fun _ => Single.plain) (fun _ => Single.bind (Single.note hn) (fun _ => Single.plain)))))))))

theorem lcLoopTr_single {dict : Nat → Tr (List Value)} {nullable : Bool} (h : ∀ n, Single M (dict n)) (fuel : Nat) :
    ∀ (limit : Nat) (g : Option (List Value)) (out : List Value), Single M (lcLoopTr dict nullable fuel limit g out) := by
  induction fuel with
  | zero => intro l g o; exact Single.plain
  | succ fuel ih =>
    intro limit g out
    simp only [lcLoopTr]
    refine Single.ite (fun _ => Single.pure) (fun _ => Single.bind Single.plain (fun flags => ?_))
    cases lcWidth flags with
    | none => exact Single.plain
    | some w =>
      refine Single.bind (Single.ite (fun _ => Single.bind Single.plain (fun _ => Single.map (h _))) (fun _ => Single.pure)) (fun _ => ?_)
      refine Single.bind (Single.ite (fun _ => Single.bind Single.plain (fun _ => h _)) (fun _ => Single.pure)) (fun _ => ?_)
      refine Single.bind Single.plain (fun _ => Single.bind (Single.guard (fun hn => Single.bind (Single.note (by omega)) (fun _ =>
        Single.plain))) (fun _ => Single.bind Single.plain (fun _ => ih _ _ _)))

theorem deLcTr_single {dict : Nat → Tr (List Value)} {nullable : Bool} (h : ∀ n, Single M (dict n)) (n : Nat) :
    Single M (guardTr n (deLcTr dict nullable n)) := Single.guard (fun _ s => lcLoopTr_single hM h _ _ _ _ s)

theorem sized_single {cfg : Cfg} {t : Ty} (h : t.isSized = true) (n : Nat) : Single M (deColTr cfg t n) := by
  rw [deColTr_sized h]
  exact Single.guard (fun hn => Single.bind (Single.note (by omega)) (fun _ => Single.plain))
end

mutual
theorem deColTr_single {cfg : Cfg} {M : Nat} (hM : maxStringSize ≤ M) : ∀ (t : Ty), widest t ≤ M → ∀ (n : Nat), Single M (deColTr cfg t n)
  | .string, _, n => Single.guard (fun hn => Single.bind (Single.note (by omega)) (fun _ => Single.rep (Single.map (readStringTr_single hM)) _))
  | .fixedString k, hw, n => Single.guard (fun hn => Single.bind (Single.note (by omega)) (fun _ => Single.rep
      (Single.ite (fun _ => Single.plain) (fun _ => Single.bind (Single.note hw) (fun _ => Single.bind Single.plain (fun _ => Single.pure)))) _))
  | .array t, hw, n => by
    have := deArrTr_single (cfg := cfg) hM (fun m => deColTr_single (cfg := cfg) hM t hw m) n
    unfold guardTr at this
    refine Single.guard (fun hn => Single.map ?_)
    rw [if_neg (by omega)] at this
    exact this
  | .tuple ts, hw, n => Single.guard (fun hn => Single.bind (Single.note (by omega)) (fun _ => Single.map (deColsTr_single hM ts hw n _)))
  | .point, _, n => Single.map (dePtsTr_single hM n)
  | .ring, _, n => Single.map (deArrTr_single hM (dePtsTr_single hM) n)
  | .polygon, _, n => Single.map (deArrTr_single hM (deArrTr_single hM (dePtsTr_single hM)) n)
  | .multiPolygon, _, n => Single.map (deArrTr_single hM (deArrTr_single hM (deArrTr_single hM (dePtsTr_single hM))) n)
  | .nullable t, hw, n => Single.guard (fun hn => Single.bind (Single.note (by omega)) (fun _ => Single.bind Single.plain (fun _ =>
      Single.bind (deColTr_single hM t hw n) (fun _ => Single.plain))))
  | .map k v, hw, n => by
    simp only [widest] at hw
    exact deMapTr_single hM (deColTr_single hM k (by omega)) (deColTr_single hM v (by omega)) n
  | .lowCardinality t, hw, n => by
    by_cases hn : t.isNullable = true
    · match t, hn, hw with
      | .nullable u, _, hw => exact deLcTr_single hM (deColTr_single hM u hw) n
    · rw [deColTr_lc_nonnull (Bool.eq_false_iff.mpr hn)]
      exact deLcTr_single hM (deColTr_single hM t hw) n
  | .int8, _, n => sized_single hM rfl n
  | .int16, _, n => sized_single hM rfl n
  | .int32, _, n => sized_single hM rfl n
  | .int64, _, n => sized_single hM rfl n
  | .int128, _, n => sized_single hM rfl n
  | .int256, _, n => sized_single hM rfl n
  | .uint8, _, n => sized_single hM rfl n
  | .uint16, _, n => sized_single hM rfl n
  | .uint32, _, n => sized_single hM rfl n
  | .uint64, _, n => sized_single hM rfl n
  | .uint128, _, n => sized_single hM rfl n
  | .uint256, _, n => sized_single hM rfl n
  | .float32, _, n => sized_single hM rfl n
  | .float64, _, n => sized_single hM rfl n
  | .bfloat16, _, n => sized_single hM rfl n
  | .decimal32 _, _, n => sized_single hM rfl n
  | .decimal64 _, _, n => sized_single hM rfl n
  | .decimal128 _, _, n => sized_single hM rfl n
  | .decimal256 _, _, n => sized_single hM rfl n
  | .uuid, _, n => sized_single hM rfl n
  | .date, _, n => sized_single hM rfl n
  | .dateTime _, _, n => sized_single hM rfl n
  | .dateTime64 _ _, _, n => sized_single hM rfl n
  | .ipv4, _, n => sized_single hM rfl n
  | .ipv6, _, n => sized_single hM rfl n
  | .enum8 _, _, n => sized_single hM rfl n
  | .enum16 _, _, n => sized_single hM rfl n
theorem deColsTr_single {cfg : Cfg} {M : Nat} (hM : maxStringSize ≤ M) : ∀ (ts : List Ty), widestOf ts ≤ M → ∀ (n : Nat) (acc : List (List Value)),
    Single M (deColsTr cfg ts n acc)
  | [], _, _, _ => Single.pure
  | t :: ts, hw, n, acc => by
    simp only [widestOf] at hw
    exact Single.bind (deColTr_single hM t (by omega) n) (fun _ => Single.bind Single.plain (fun _ => deColsTr_single hM ts (by omega) n _))
end

/-! ### All of them -/

/-- What is reserved altogether: up to `k` for each byte taken when the reader succeeds, which takes `m` bytes at least; up to `k` for each
byte received and `d` times `M` in any case. -/
def Charged {α : Type} (M k d m : Nat) (x : Tr α) : Prop :=
  ∀ s, (∀ a s', (x s).2 = .ok (a, s') → ∃ c, s = c ++ s' ∧ m ≤ c.length ∧ (x s).1.sum ≤ k * c.length) ∧
    (x s).1.sum ≤ k * s.length + d * M

namespace Charged
variable {α β : Type} {M k d m : Nat}

theorem mono {k' d' m' : Nat} {x : Tr α} (h : Charged M k d m x) (hk : k ≤ k') (hd : d ≤ d') (hm : m' ≤ m) : Charged M k' d' m' x := by
  intro s
  refine ⟨fun a s' hs => ?_, ?_⟩
  · obtain ⟨c, h1, h2, h3⟩ := (h s).1 a s' hs
    exact ⟨c, h1, by omega, Nat.le_trans h3 (Nat.mul_le_mul_right _ hk)⟩
  · exact Nat.le_trans (h s).2 (Nat.add_le_add (Nat.mul_le_mul_right _ hk) (Nat.mul_le_mul_right _ hd))

theorem plain {x : Rd α} (h : Takes (fun _ c => m ≤ c) x) : Charged M k d m (Tr.plain x) := by
  intro s
  refine ⟨fun a s' hs => ?_, Nat.zero_le _⟩
  obtain ⟨c, h1, h2⟩ := h s a s' hs
  exact ⟨c, h1, h2, Nat.zero_le _⟩

theorem fail {e : Err} : Charged M k d m (Tr.plain (Rd.fail e) : Tr α) := plain Takes.fail

theorem pure {a : α} : Charged M k d 0 (Pure.pure a : Tr α) := plain (Takes.pure (Nat.le_refl _))

theorem bind {m1 m2 : Nat} {x : Tr α} {f : α → Tr β} (hx : Charged M k d m1 x) (hf : ∀ a, Charged M k d m2 (f a)) (hm : m ≤ m1 + m2) :
    Charged M k d m (x >>= f) := by
  intro s
  show (∀ b s', (Tr.bind x f s).2 = .ok (b, s') → _) ∧ _
  have e : (x >>= f) s = Tr.bind x f s := rfl
  rw [e]
  unfold Tr.bind
  rcases h : (x s).2 with ⟨a, s1⟩ | er | _
  · obtain ⟨c1, e1, m1, q1⟩ := (hx s).1 a s1 h
    dsimp only
    rw [List.sum_append]
    refine ⟨fun b s' hb => ?_, ?_⟩
    · obtain ⟨c2, e2, m2, q2⟩ := (hf a s1).1 b s' hb
      refine ⟨c1 ++ c2, by rw [e1, e2, List.append_assoc], by rw [List.length_append]; omega, ?_⟩
      rw [List.length_append, Nat.mul_add]
      omega
    · have := (hf a s1).2
      have el : s.length = c1.length + s1.length := by rw [e1, List.length_append]
      rw [el, Nat.mul_add]
      omega
  · exact ⟨fun _ _ h => (by cases h), (hx s).2⟩
  · exact ⟨fun _ _ h => (by cases h), (hx s).2⟩

theorem map {x : Tr α} {g : α → β} (hx : Charged M k d m x) : Charged M k d m (x >>= fun a => Pure.pure (g a)) :=
  bind hx (fun _ => pure) (Nat.le_refl _)

theorem ite {p : Prop} [Decidable p] {x y : Tr α} (hx : p → Charged M k d m x) (hy : ¬ p → Charged M k d m y) :
    Charged M k d m (if p then x else y) := by
  split
  · exact hx ‹_›
  · exact hy ‹_›

theorem guard {n : Nat} {x : Tr α} (hx : n ≤ maxStringSize → Charged M k d m x) : Charged M k d m (guardTr n x) :=
  ite (fun _ => fail) (fun h => hx (by omega))

/-- Room is reserved for what is then read. -/
theorem first {n : Nat} {x : Unit → Tr α} (hx : Charged M k d m (x ())) (hn : n ≤ M) (hm : n ≤ m) :
    Charged M (k + 1) (d + 1) m (Tr.note n >>= x) := by
  intro s
  have e : (Tr.note n >>= x) s = (n :: (x () s).1, (x () s).2) := rfl
  rw [e]
  dsimp only
  rw [List.sum_cons]
  refine ⟨fun b s' hb => ?_, ?_⟩
  · obtain ⟨c, e1, m1, q1⟩ := (hx s).1 b s' hb
    refine ⟨c, e1, m1, ?_⟩
    rw [Nat.add_mul]
    omega
  · have := (hx s).2
    rw [Nat.add_mul, Nat.add_mul]
    omega

/-- Room is reserved for what has been read. -/
theorem after {n : Nat} {x : Tr α} {f : α → Rd β} (hx : Charged M k d m x) (hf : ∀ a, Takes (fun _ c => 0 ≤ c) (f a)) (hn : n ≤ m) :
    Charged M (k + 1) d m (x >>= fun a => Tr.note n >>= fun _ => Tr.plain (f a)) := by
  intro s
  have e : (x >>= fun a => Tr.note n >>= fun _ => Tr.plain (f a)) s = Tr.bind x (fun a => Tr.note n >>= fun _ => Tr.plain (f a)) s := rfl
  rw [e]
  unfold Tr.bind
  rcases h : (x s).2 with ⟨a, s1⟩ | er | _
  · obtain ⟨c1, e1, m1, q1⟩ := (hx s).1 a s1 h
    have e2 : (Tr.note n >>= fun _ => Tr.plain (f a)) s1 = ([n], f a s1) := rfl
    dsimp only
    rw [e2, List.sum_append]
    refine ⟨fun b s' hb => ?_, ?_⟩
    · obtain ⟨c2, e2, m2⟩ := hf a s1 b s' hb
      refine ⟨c1 ++ c2, by rw [e1, e2, List.append_assoc], by rw [List.length_append]; omega, ?_⟩
      have : (k + 1) * c1.length ≤ (k + 1) * (c1 ++ c2).length := Nat.mul_le_mul_left _ (by rw [List.length_append]; omega)
      rw [Nat.add_mul] at this
      simp only [List.sum_cons, List.sum_nil]
      omega
    · have el : s.length = c1.length + s1.length := by rw [e1, List.length_append]
      rw [el, Nat.mul_add, Nat.add_mul]
      simp only [List.sum_cons, List.sum_nil]
      omega
  · refine ⟨fun _ _ h => (by cases h), ?_⟩
    have := (hx s).2
    rw [Nat.add_mul]
    dsimp only
    omega
  · refine ⟨fun _ _ h => (by cases h), ?_⟩
    have := (hx s).2
    rw [Nat.add_mul]
    dsimp only
    omega

theorem rep {x : Tr α} (hx : Charged M k d 1 x) (n : Nat) : Charged M k d n (Tr.rep n x) := by
  induction n with
  | zero => exact pure
  | succ n ih => exact bind hx (fun a => map ih) (by omega)

end Charged

section
variable {M : Nat} (hM : maxStringSize ≤ M)
include hM

theorem readStringTr_charged : Charged M 1 1 1 readStringTr := by
  unfold readStringTr
  refine Charged.bind (m1 := 1) (m2 := 0) (Charged.plain Takes.varUint) (fun len => ?_) (Nat.le_refl _)
  refine Charged.ite (fun _ => Charged.fail) (fun _ => Charged.ite (fun _ => Charged.pure) (fun _ => ?_))
  exact (Charged.first (k := 0) (d := 0) (Charged.plain (m := len) (Takes.mono (Takes.exact len) (fun _ _ h => by omega))) (by omega)
    (Nat.le_refl _)).mono (Nat.le_refl _) (Nat.le_refl _) (Nat.zero_le _)

theorem deStringsTr_charged (n : Nat) : Charged M 2 2 n (guardTr n (deStringsTr n)) :=
  Charged.guard (fun hn => Charged.first (Charged.rep (Charged.map (readStringTr_charged hM)) n) (by omega) (Nat.le_refl _))

theorem deFixedTr_charged {k : Nat} (hk : k ≠ 0) (hw : k ≤ M) (n : Nat) : Charged M 2 2 n (guardTr n (deFixedTr k n)) :=
  Charged.guard (fun hn => Charged.first (Charged.rep (Charged.ite (fun _ => Charged.plain Takes.panic) (fun _ =>
    (Charged.first (k := 0) (d := 0) (m := k) (Charged.bind (m1 := k) (m2 := 0)
      (Charged.plain (Takes.mono (Takes.exact k) (fun _ _ h => by omega))) (fun _ => Charged.pure) (by omega)) hw (Nat.le_refl _)).mono
      (Nat.le_refl _) (Nat.le_refl _) (by omega))) n) (by omega) (Nat.le_refl _))

theorem sized_charged {cfg : Cfg} {t : Ty} (h : t.isSized = true) (n : Nat) : Charged M 1 1 n (deColTr cfg t n) := by
  rw [deColTr_sized h]
  refine Charged.guard (fun hn => Charged.first (k := 0) (d := 0) (Charged.plain ?_) (by omega) (Nat.le_refl _))
  have := deSized_takes (text := fun _ => 1) (cfg := cfg) h n
  rw [deCol_sized h, guardRows, if_neg (by omega)] at this
  exact Takes.mono this (fun _ _ h => h.1)

theorem offsets_charged (k d n : Nat) : Charged M k d n (Tr.plain (Rd.rep n readU64)) :=
  Charged.plain (Takes.mono (Takes.rep (R := fun os c => os.length ≤ c) Takes.u64 (Nat.le_refl _)
    (fun a as i j h1 h2 => by simp only [List.length_cons]; omega) n) (fun _ _ h => by omega))

theorem deArrTr_charged {α : Type} {cfg : Cfg} {inner : Nat → Tr (List α)} {w : Nat} (hw : 1 ≤ w) (h : ∀ n, Charged M w w 0 (inner n))
    (n : Nat) : Charged M (w + 1) (w + 1) n (deArrTr cfg inner n) := by
  unfold deArrTr
  refine Charged.ite (fun h0 => by rw [h0]; exact Charged.pure) (fun _ => ?_)
  have e : (Tr.plain (Rd.rep n readU64) >>= fun offsets => inner (offsets.getLastD 0) >>= fun items =>
      Tr.note n >>= fun _ => Tr.plain (Rd.lift (splitOffsets cfg 0 offsets items))) =
      ((Tr.plain (Rd.rep n readU64) >>= fun offsets => inner (offsets.getLastD 0) >>= fun items => Pure.pure (offsets, items)) >>= fun p =>
        Tr.note n >>= fun _ => Tr.plain (Rd.lift (splitOffsets cfg 0 p.1 p.2))) := by
    rw [Tr.bind_assoc]
    congr 1
    funext os
    rw [Tr.bind_assoc]
    rfl
  rw [e]
  refine (Charged.after (k := w) (d := w) (m := n) ?_ (fun _ => Takes.lift (fun _ _ => Nat.zero_le _)) (Nat.le_refl _)).mono
    (Nat.le_refl _) (Nat.le_succ _) (Nat.le_refl _)
  exact Charged.bind (m1 := n) (m2 := 0) (offsets_charged hM _ _ n) (fun os => Charged.map (h _)) (Nat.le_refl _)

theorem floats_charged {k d n : Nat} (hn : n ≤ M) :
    Charged M (k + 1) (d + 1) n (Tr.note n >>= fun _ => Tr.plain (Rd.rep n (readLe 8 64))) :=
  Charged.first (Charged.plain (Takes.mono (Takes.rep (R := fun os c => os.length ≤ c) (Takes.le 8 64) (Nat.le_refl _)
    (fun a as i j h1 h2 => by simp only [List.length_cons]; omega) n) (fun _ _ h => by omega))) hn (Nat.le_refl _)

theorem dePtsTr_charged (n : Nat) : Charged M 3 3 n (dePtsTr n) :=
  Charged.guard (fun hn =>
    Charged.first (k := 2) (d := 2) (Charged.bind (m1 := n) (m2 := n) (floats_charged hM (by omega)) (fun xs =>
      Charged.bind (m1 := n) (m2 := 0) (floats_charged hM (by omega)) (fun ys => Charged.pure) (Nat.le_refl _)) (by omega)) (by omega)
      (Nat.le_refl _))

theorem rings_charged {α : Type} {cfg : Cfg} {inner : Nat → Tr (List α)} {w : Nat} (hw : 1 ≤ w) (h : ∀ n, Charged M w w n (inner n))
    (n : Nat) : Charged M (w + 1) (w + 1) n (guardTr n (deArrTr cfg inner n)) :=
  Charged.guard (fun _ => deArrTr_charged hM hw (fun m => (h m).mono (Nat.le_refl _) (Nat.le_refl _) (Nat.zero_le _)) n)

theorem deMapTr_charged {key value : Nat → Tr (List Value)} {w : Nat} (h1 : ∀ n, Charged M w w 0 (key n)) (h2 : ∀ n, Charged M w w 0 (value n))
    (n : Nat) : Charged M (w + 2) (w + 2) n (guardTr n (deMapTr key value n)) := by
  refine Charged.guard (fun hn => ?_)
  unfold deMapTr
  refine Charged.ite (fun h0 => by rw [h0]; exact Charged.pure) (fun _ => ?_)
  refine Charged.first (k := w + 1) (d := w + 1) ?_ (by omega) (Nat.le_refl _)
  dsimp only
  let x : Tr (List Nat × List Value × List Value) := Tr.plain (Rd.rep n readU64) >>= fun offsets =>
    key (offsets.getLastD 0) >>= fun ks => if ks.length ≠ offsets.getLastD 0 then Tr.plain Rd.panic else
      value (offsets.getLastD 0) >>= fun vs => if vs.length ≠ offsets.getLastD 0 then Tr.plain Rd.panic else Pure.pure (offsets, ks, vs)
  have e : (Tr.plain (Rd.rep n readU64) >>= fun offsets => key (offsets.getLastD 0) >>= fun ks =>
      if ks.length ≠ offsets.getLastD 0 then Tr.plain Rd.panic
      else value (offsets.getLastD 0) >>= fun vs => if vs.length ≠ offsets.getLastD 0 then Tr.plain Rd.panic
        else Tr.note n >>= fun _ => Tr.plain (Rd.lift (splitMap 0 offsets ks vs))) =
      (x >>= fun p => Tr.note n >>= fun _ => Tr.plain (Rd.lift (splitMap 0 p.1 p.2.1 p.2.2))) := by
    simp only [x]
    rw [Tr.bind_assoc]
    congr 1
    funext os
    rw [Tr.bind_assoc]
    congr 1
    funext ks
    split
    · rfl
    · rw [Tr.bind_assoc]
      congr 1
      funext vs
      split <;> rfl
  rw [e]
  refine (Charged.after (k := w) (d := w) (m := n) ?_ (fun _ => Takes.lift (fun _ _ => Nat.zero_le _)) (Nat.le_refl _)).mono
    (Nat.le_refl _) (Nat.le_succ _) (Nat.le_refl _)
  refine Charged.bind (m1 := n) (m2 := 0) (offsets_charged hM _ _ n) (fun os => ?_) (Nat.le_refl _)
  refine Charged.bind (m1 := 0) (m2 := 0) (h1 _) (fun ks => ?_) (Nat.le_refl _)
  refine Charged.ite (fun _ => Charged.plain Takes.panic) (fun _ => ?_)
  refine Charged.bind (m1 := 0) (m2 := 0) (h2 _) (fun vs => ?_) (Nat.le_refl _)
  exact Charged.ite (fun _ => Charged.plain Takes.panic) (fun _ => Charged.pure)

theorem lcLoopTr_charged {dict : Nat → Tr (List Value)} {nullable : Bool} {w : Nat} (hw : 1 ≤ w) (h : ∀ n, Charged M w w 0 (dict n))
    (fuel : Nat) : ∀ (limit : Nat) (g : Option (List Value)) (out : List Value), Charged M w w limit (lcLoopTr dict nullable fuel limit g out) := by
  induction fuel with
  | zero => intro l g o; exact Charged.fail
  | succ fuel ih =>
    intro limit g out
    simp only [lcLoopTr]
    have hu : ∀ (x : Nat → Tr (Option (List Value))), (∀ n, Charged M w w 0 (x n)) → Charged M w w 0 (Tr.plain readU64 >>= x) := fun x hx =>
      Charged.bind (m1 := 0) (m2 := 0) (Charged.plain (Takes.mono Takes.u64 (fun _ _ _ => Nat.zero_le _))) hx (Nat.le_refl _)
    have hu' : ∀ (x : Nat → Tr (List Value)) {m}, (∀ n, Charged M w w m (x n)) → Charged M w w m (Tr.plain readU64 >>= x) := fun x _ hx =>
      Charged.bind (m1 := 0) (Charged.plain (Takes.mono Takes.u64 (fun _ _ _ => Nat.zero_le _))) hx (by omega)
    refine Charged.ite (fun h0 => by rw [h0]; exact Charged.pure) (fun _ => hu' _ (fun flags => ?_))
    cases hc : lcWidth flags with
    | none => exact Charged.fail
    | some c =>
      have hw1 : 1 ≤ c := by
        unfold lcWidth at hc
        split at hc <;> first | (cases hc; done) | (injection hc with hc; omega)
      refine Charged.bind (m1 := 0) (m2 := limit) (Charged.ite (fun _ => hu _ (fun _ => Charged.map (h _))) (fun _ => Charged.pure))
        (fun _ => ?_) (by omega)
      refine Charged.bind (m1 := 0) (m2 := limit) (Charged.ite (fun _ => hu' _ (fun _ => h _)) (fun _ => Charged.pure)) (fun _ => ?_) (by omega)
      refine hu' _ (fun pending => ?_)
      refine Charged.bind (m1 := min limit pending) (m2 := limit - min limit pending) ?_ (fun idx => ?_) (by omega)
      · refine Charged.guard (fun hn => (Charged.first (k := 0) (d := 0) (Charged.plain (m := min limit pending) ?_) (by omega) (Nat.le_refl _)).mono hw hw
          (Nat.le_refl _))
        exact Takes.mono (Takes.rep (P := fun _ c => 1 ≤ c) (R := fun as c => as.length ≤ c)
          (Takes.map (Takes.exact c) (fun _ _ h => by omega)) (Nat.le_refl _)
          (fun a as i j h1 h2 => by simp only [List.length_cons]; omega) _) (fun _ _ h => by omega)
      refine Charged.bind (m1 := 0) (m2 := limit - min limit pending) (Charged.plain ?_) (fun vals => ih _ _ _) (by omega)
      exact Takes.ite (fun _ => Takes.lift (fun _ _ => Nat.zero_le _)) (fun _ => Takes.pure (Nat.zero_le _))

theorem deLcTr_charged {dict : Nat → Tr (List Value)} {nullable : Bool} {w : Nat} (hw : 1 ≤ w) (h : ∀ n, Charged M w w 0 (dict n)) (n : Nat) :
    Charged M w w n (guardTr n (deLcTr dict nullable n)) := Charged.guard (fun _ s => lcLoopTr_charged hM hw h _ _ _ _ s)
end

mutual
theorem weight_pos : ∀ t : Ty, 1 ≤ weight t
  | .lowCardinality t => weight_pos t
  | .array _ | .nullable _ | .tuple _ | .map _ _ => by simp only [weight]; omega
  | .string | .fixedString _ | .point | .ring | .polygon | .multiPolygon
  | .int8 | .int16 | .int32 | .int64 | .int128 | .int256 | .uint8 | .uint16 | .uint32 | .uint64 | .uint128 | .uint256
  | .float32 | .float64 | .bfloat16 | .decimal32 _ | .decimal64 _ | .decimal128 _ | .decimal256 _
  | .uuid | .date | .dateTime _ | .dateTime64 _ _ | .ipv4 | .ipv6 | .enum8 _ | .enum16 _ => by simp [weight]
end

theorem Charged.loose {α : Type} {M w w' m : Nat} {x : Tr α} (h : Charged M w w m x) (hw : w ≤ w') : Charged M w' w' 0 x :=
  h.mono hw hw (Nat.zero_le _)

mutual
theorem deColTr_charged {cfg : Cfg} {M : Nat} (hM : maxStringSize ≤ M) : ∀ (t : Ty), roomy t = true → widest t ≤ M → ∀ (n : Nat),
    Charged M (weight t) (weight t) n (deColTr cfg t n)
  | .string, _, _, n => deStringsTr_charged hM n
  | .fixedString k, hr, hw, n => deFixedTr_charged (k := k) hM (by simpa [roomy] using hr) hw n
  | .array t, hr, hw, n => Charged.guard (fun _ => Charged.map (deArrTr_charged hM (weight_pos t)
      (fun m => (deColTr_charged hM t hr hw m).loose (Nat.le_refl _)) n))
  | .tuple ts, hr, hw, n => by
    simp only [roomy, Bool.and_eq_true, Bool.not_eq_true', List.isEmpty_eq_false_iff] at hr
    exact Charged.guard (fun hn => Charged.first (Charged.map (deColsTr_charged hM ts hr.1 hr.2 hw n _)) (by omega) (Nat.le_refl _))
  | .point, _, _, n => Charged.map (dePtsTr_charged hM n)
  | .ring, _, _, n => Charged.map (rings_charged hM (by omega) (dePtsTr_charged hM) n)
  | .polygon, _, _, n => Charged.map (rings_charged hM (by omega) (rings_charged hM (by omega) (dePtsTr_charged hM)) n)
  | .multiPolygon, _, _, n =>
    Charged.map (rings_charged hM (by omega) (rings_charged hM (by omega) (rings_charged hM (by omega) (dePtsTr_charged hM))) n)
  | .nullable t, hr, hw, n => Charged.guard (fun hn => Charged.first (Charged.bind (m1 := n) (m2 := 0)
      (Charged.plain (Takes.mono (Takes.exact n) (fun _ _ h => by omega))) (fun _ => Charged.bind (m1 := 0) (m2 := 0)
        ((deColTr_charged hM t hr hw n).loose (Nat.le_refl _)) (fun _ => Charged.plain (Takes.lift (fun _ _ => Nat.zero_le _))) (Nat.le_refl _))
      (Nat.le_refl _)) (by omega) (Nat.le_refl _))
  | .map k v, hr, hw, n => by
    simp only [roomy, Bool.and_eq_true] at hr
    simp only [widest] at hw
    exact deMapTr_charged hM (fun m => (deColTr_charged hM k hr.1 (by omega) m).loose (Nat.le_max_left _ _))
      (fun m => (deColTr_charged hM v hr.2 (by omega) m).loose (Nat.le_max_right _ _)) n
  | .lowCardinality t, hr, hw, n => by
    simp only [roomy, Bool.and_eq_true] at hr
    by_cases hn : t.isNullable = true
    · match t, hn, hr, hw with
      | .nullable u, _, hr, hw =>
        exact (deLcTr_charged hM (weight_pos u) (fun m => (deColTr_charged hM u hr.2 hw m).loose (Nat.le_refl _)) n).mono (Nat.le_succ _)
          (Nat.le_succ _) (Nat.le_refl _)
    · rw [deColTr_lc_nonnull (Bool.eq_false_iff.mpr hn)]
      exact deLcTr_charged hM (weight_pos t) (fun m => (deColTr_charged hM t hr.2 hw m).loose (Nat.le_refl _)) n
  | .int8, _, _, n => sized_charged hM rfl n
  | .int16, _, _, n => sized_charged hM rfl n
  | .int32, _, _, n => sized_charged hM rfl n
  | .int64, _, _, n => sized_charged hM rfl n
  | .int128, _, _, n => sized_charged hM rfl n
  | .int256, _, _, n => sized_charged hM rfl n
  | .uint8, _, _, n => sized_charged hM rfl n
  | .uint16, _, _, n => sized_charged hM rfl n
  | .uint32, _, _, n => sized_charged hM rfl n
  | .uint64, _, _, n => sized_charged hM rfl n
  | .uint128, _, _, n => sized_charged hM rfl n
  | .uint256, _, _, n => sized_charged hM rfl n
  | .float32, _, _, n => sized_charged hM rfl n
  | .float64, _, _, n => sized_charged hM rfl n
  | .bfloat16, _, _, n => sized_charged hM rfl n
  | .decimal32 _, _, _, n => sized_charged hM rfl n
  | .decimal64 _, _, _, n => sized_charged hM rfl n
  | .decimal128 _, _, _, n => sized_charged hM rfl n
  | .decimal256 _, _, _, n => sized_charged hM rfl n
  | .uuid, _, _, n => sized_charged hM rfl n
  | .date, _, _, n => sized_charged hM rfl n
  | .dateTime _, _, _, n => sized_charged hM rfl n
  | .dateTime64 _ _, _, _, n => sized_charged hM rfl n
  | .ipv4, _, _, n => sized_charged hM rfl n
  | .ipv6, _, _, n => sized_charged hM rfl n
  | .enum8 _, _, _, n => sized_charged hM rfl n
  | .enum16 _, _, _, n => sized_charged hM rfl n
theorem deColsTr_charged {cfg : Cfg} {M : Nat} (hM : maxStringSize ≤ M) : ∀ (ts : List Ty), ts ≠ [] → roomyAll ts = true → widestOf ts ≤ M →
    ∀ (n : Nat) (acc : List (List Value)), Charged M (heaviest ts) (heaviest ts) n (deColsTr cfg ts n acc)
  | [], h0, _, _, _, _ => absurd rfl h0
  | t :: ts, _, hr, hw, n, acc => by
    simp only [roomyAll, Bool.and_eq_true] at hr
    simp only [widestOf] at hw
    simp only [deColsTr]
    refine Charged.bind (m1 := n) (m2 := 0) ((deColTr_charged hM t hr.1 (by omega) n).mono (Nat.le_max_left _ _) (Nat.le_max_left _ _)
      (Nat.le_refl _)) (fun vs => ?_) (Nat.le_refl _)
    refine Charged.bind (m1 := 0) (m2 := 0) (Charged.plain (Takes.lift (fun _ _ => Nat.zero_le _))) (fun acc' => ?_) (Nat.le_refl _)
    match ts, hr.2, hw with
    | [], _, _ => exact Charged.pure
    | u :: us, hr, hw =>
      exact (deColsTr_charged hM (u :: us) (by simp) hr (by omega) n acc').loose (Nat.le_max_right _ _)
end

end Klick
