import Verif.Spec.Guess
import Verif.Props.Convert
import Verif.Props.RawRow
/-
C77: the column type inferred from a value.
-/
namespace Klick
open Spec Props

mutual
theorem guess_ok : ∀ v : Value, NoEnum v → ∃ T, v.guessType = .ok T
  | .array xs, h => by
    obtain ⟨T, e⟩ := guessFirst_ok xs h
    exact ⟨.array T, by simp only [Value.guessType, e, Res.bind_ok]⟩
  | .tuple xs, h => by
    obtain ⟨T, e⟩ := guessAll_ok xs h
    exact ⟨.tuple T, by simp only [Value.guessType, e, Res.bind_ok]⟩
  | .map ks vs, h => by
    obtain ⟨T, e⟩ := guessFirst_ok ks h.1
    obtain ⟨S, f⟩ := guessFirst_ok vs h.2
    exact ⟨.map T S, by simp only [Value.guessType, e, f, Res.bind_ok]⟩
  | .enum8 _, h => h.elim
  | .enum16 _, h => h.elim
  | .null, _ => ⟨_, rfl⟩
  | .int8 _, _ => ⟨_, rfl⟩ | .int16 _, _ => ⟨_, rfl⟩ | .int32 _, _ => ⟨_, rfl⟩ | .int64 _, _ => ⟨_, rfl⟩
  | .int128 _, _ => ⟨_, rfl⟩ | .int256 _, _ => ⟨_, rfl⟩
  | .uint8 _, _ => ⟨_, rfl⟩ | .uint16 _, _ => ⟨_, rfl⟩ | .uint32 _, _ => ⟨_, rfl⟩ | .uint64 _, _ => ⟨_, rfl⟩
  | .uint128 _, _ => ⟨_, rfl⟩ | .uint256 _, _ => ⟨_, rfl⟩
  | .float32 _, _ => ⟨_, rfl⟩ | .float64 _, _ => ⟨_, rfl⟩ | .bfloat16 _, _ => ⟨_, rfl⟩
  | .decimal32 _ _, _ => ⟨_, rfl⟩ | .decimal64 _ _, _ => ⟨_, rfl⟩ | .decimal128 _ _, _ => ⟨_, rfl⟩ | .decimal256 _ _, _ => ⟨_, rfl⟩
  | .string _, _ => ⟨_, rfl⟩ | .uuid _, _ => ⟨_, rfl⟩ | .date _, _ => ⟨_, rfl⟩ | .dateTime _ _, _ => ⟨_, rfl⟩
  | .dateTime64 _ _ _, _ => ⟨_, rfl⟩ | .ipv4 _, _ => ⟨_, rfl⟩ | .ipv6 _, _ => ⟨_, rfl⟩
  | .point _, _ => ⟨_, rfl⟩ | .ring _, _ => ⟨_, rfl⟩ | .polygon _, _ => ⟨_, rfl⟩ | .multiPolygon _, _ => ⟨_, rfl⟩
theorem guessFirst_ok : ∀ vs : List Value, NoEnums vs → ∃ T, Value.guessFirst vs = .ok T
  | [], _ => ⟨_, rfl⟩
  | v :: _, h => by
    obtain ⟨T, e⟩ := guess_ok v h.1
    exact ⟨T, by simp only [Value.guessFirst, e]⟩
theorem guessAll_ok : ∀ vs : List Value, NoEnums vs → ∃ T, Value.guessAll vs = .ok T
  | [], _ => ⟨_, rfl⟩
  | v :: vs, h => by
    obtain ⟨T, e⟩ := guess_ok v h.1
    obtain ⟨Ts, f⟩ := guessAll_ok vs h.2
    exact ⟨T :: Ts, by simp only [Value.guessAll, e, f, Res.bind_ok]⟩
end

/-- An inferred type is `Nullable` for NULL only, and never `LowCardinality`. -/
theorem guess_form {v : Value} {T : Ty} (h : v.guessType = .ok T) : isLc T = false ∧ (v ≠ .null → T.isNullable = false) := by
  cases v with
  | array xs =>
    simp only [Value.guessType] at h
    obtain ⟨S, _, h⟩ := (Res.bind_eq_ok ..).mp h
    cases h; exact ⟨rfl, fun _ => rfl⟩
  | tuple xs =>
    simp only [Value.guessType] at h
    obtain ⟨S, _, h⟩ := (Res.bind_eq_ok ..).mp h
    cases h; exact ⟨rfl, fun _ => rfl⟩
  | map ks vs =>
    simp only [Value.guessType] at h
    obtain ⟨S, _, h⟩ := (Res.bind_eq_ok ..).mp h
    obtain ⟨S, _, h⟩ := (Res.bind_eq_ok ..).mp h
    cases h; exact ⟨rfl, fun _ => rfl⟩
  | null => cases h; exact ⟨rfl, fun h => absurd rfl h⟩
  | enum8 _ => cases h
  | enum16 _ => cases h
  | _ => cases h; exact ⟨rfl, fun _ => rfl⟩

theorem guess_strip {v : Value} {T : Ty} (h : v.guessType = .ok T) : T.stripLowCardinality = T := strip_of_not_lc (guess_form h).1

theorem elemHint_none : elemHint none = none := rfl

theorem guess_prim (p : Prim) (x : p.den) : ∃ T, (p.toValue x).guessType = .ok T ∧ Column p T := by
  cases p <;> exact ⟨_, rfl, by constructor⟩

theorem mapL_total {α β : Type} {f : α → Res β} (h : ∀ x, ∃ y, f x = .ok y) (xs : List α) : ∃ ys, Res.mapL f xs = .ok ys := by
  induction xs with
  | nil => exact ⟨[], rfl⟩
  | cons x xs ih =>
    obtain ⟨y, e⟩ := h x
    obtain ⟨ys, f⟩ := ih
    exact ⟨y :: ys, by simp only [Res.mapL, e, f, Res.bind_ok]⟩

theorem mapHints_total {α : Type} {f : Option Ty → α → Res Value} (h : ∀ o x, ∃ y, f o x = .ok y) (xs : List α) :
    ∀ hs, ∃ ys, mapHints f hs xs = .ok ys := by
  induction xs with
  | nil => exact fun _ => ⟨[], rfl⟩
  | cons x xs ih =>
    intro hs
    obtain ⟨y, e⟩ := h hs.head? x
    obtain ⟨ys, f⟩ := ih hs.tail
    exact ⟨y :: ys, by simp only [mapHints, e, f, Res.bind_ok]⟩

mutual
/-- Writing a value never fails. -/
theorem toSql_total : ∀ (t : RT) (h : Option Ty) (x : t.den), ∃ v, t.toSql h x = .ok v
  | .prim _, _, _ => ⟨_, rfl⟩
  | .string, _, _ => ⟨_, rfl⟩
  | .bytes, _, _ => ⟨_, rfl⟩
  | .value, _, _ => ⟨_, rfl⟩
  | .vec t, h, xs => by
    obtain ⟨ys, e⟩ := mapL_total (f := t.toSql (elemHint h)) (fun x => toSql_total t _ x) xs
    show ∃ v, vecToSql t.asBytes t.toSql h xs = .ok v
    unfold vecToSql
    rw [e]
    split
    · split
      · exact ⟨_, rfl⟩
      · exact ⟨_, rfl⟩
    · exact ⟨_, rfl⟩
  | .array t n, h, xs => by
    obtain ⟨ys, e⟩ := mapL_total (f := t.toSql (elemHint h)) (fun x => toSql_total t _ x) xs.1
    refine ⟨.array ys, ?_⟩
    show arrayToSql _ _ _ = _
    unfold arrayToSql
    rw [e]; rfl
  | .option t, h, x => by
    match x with
    | none => exact ⟨_, rfl⟩
    | some y => exact toSql_total t _ y
  | .box t, h, x => toSql_total t h x
  | .vecTuple t, h, xs => by
    obtain ⟨ys, e⟩ := mapHints_total (f := t.toSql) (fun o x => toSql_total t o x) xs (memberHints h)
    exact ⟨.tuple ys, by show (mapHints t.toSql (memberHints h) xs >>= _) = _; rw [e]; rfl⟩
  | .tuple ts, h, x => by
    obtain ⟨ys, e⟩ := toSqls_total ts (memberHints h) x
    exact ⟨.tuple ys, by show (RT.toSqls ts (memberHints h) x >>= _) = _; rw [e]; rfl⟩
  | .map k v, h, es => by
    show ∃ w, mapToSql k.toSql v.toSql h es = .ok w
    unfold mapToSql
    obtain ⟨ys, e⟩ := mapL_total (f := fun e : k.den × v.den => k.toSql ((h.bind Ty.unmap).map Prod.fst) e.1 >>= fun a =>
      v.toSql ((h.bind Ty.unmap).map Prod.snd) e.2 >>= fun b => .ok (a, b)) (fun x => by
        obtain ⟨a, e1⟩ := toSql_total k ((h.bind Ty.unmap).map Prod.fst) x.1
        obtain ⟨b, e2⟩ := toSql_total v ((h.bind Ty.unmap).map Prod.snd) x.2
        exact ⟨(a, b), by simp only [e1, e2, Res.bind_ok]⟩) es
    rw [e]
    exact ⟨_, rfl⟩
theorem toSqls_total : ∀ (ts : List RT) (hs : List Ty) (x : RT.dens ts), ∃ vs, RT.toSqls ts hs x = .ok vs
  | [], _, _ => ⟨_, rfl⟩
  | t :: ts, hs, x => by
    obtain ⟨v, e⟩ := toSql_total t hs.head? x.1
    obtain ⟨vs, f⟩ := toSqls_total ts hs.tail x.2
    exact ⟨v :: vs, by simp only [RT.toSqls, e, f, Res.bind_ok]⟩
end

mutual
theorem sound_faithful : ∀ (t : RT) (T : Ty) (x : t.den), Sound t x → Faithful t T x
  | .prim _, _, _, _ => trivial
  | .string, _, _, _ => trivial
  | .bytes, _, _, _ => trivial
  | .value, _, _, _ => trivial
  | .vec t, T, xs, h => fun x hx => sound_faithful t _ x (h x hx)
  | .array t n, T, xs, h => fun x hx => sound_faithful t _ x (h x hx)
  | .option t, T, x, h => fun y hy => ⟨(h y hy).1, sound_faithful t _ y (h y hy).2⟩
  | .box t, T, x, h => sound_faithful t T x h
  | .vecTuple t, T, x, h => h.elim
  | .tuple ts, T, x, h => soundAll_faithful ts _ x h
  | .map k v, T, es, h => fun K V _ => ⟨h.1, fun e he => sound_faithful k _ e.1 (h.2 e he).1, fun e he => sound_faithful v _ e.2 (h.2 e he).2⟩
theorem soundAll_faithful : ∀ (ts : List RT) (Ts : List Ty) (x : RT.dens ts), SoundAll ts x → FaithfulAll ts Ts x
  | [], _, _, _ => trivial
  | t :: ts, Ts, x, h => fun S Ss _ => ⟨sound_faithful t _ x.1 h.1, soundAll_faithful ts Ss x.2 h.2⟩
end

mutual
/-- The type inferred from a value that shows its type goes with its Rust type. -/
theorem telling_suits : ∀ (t : RT) (x : t.den), Telling t x → ∃ v T, t.toSql none x = .ok v ∧ v.guessType = .ok T ∧ Suits false t T
  | .prim p, x, _ => by
    obtain ⟨T, e, h⟩ := guess_prim p x
    exact ⟨_, T, rfl, e, h⟩
  | .string, _, _ => ⟨_, _, rfl, rfl, .inl rfl⟩
  | .bytes, _, _ => ⟨_, _, rfl, rfl, .inl rfl⟩
  | .value, v, h => by
    obtain ⟨T, e⟩ := guess_ok v h
    exact ⟨v, T, rfl, e, trivial⟩
  | .vec t, xs, h => by
    obtain ⟨y, hy, h⟩ := h
    obtain ⟨v, T, h1, h2, h3⟩ := telling_suits t y h
    match xs, hy with
    | _ :: xs, rfl =>
      obtain ⟨vs, e⟩ := mapL_total (f := t.toSql none) (fun x => toSql_total t _ x) xs
      refine ⟨.array (v :: vs), .array T, vecToSql_arr (asB := t.asBytes) (h := none) (vs := v :: vs) (by rw [elemHint_none]; simp only [Res.mapL, h1, e, Res.bind_ok]) (fun h => by cases h), ?_, T, rfl, ?_⟩
      · simp only [Value.guessType, Value.guessFirst, h2, Res.bind_ok]
      · rw [guess_strip h2]; exact h3
  | .array t n, xs, h => by
    obtain ⟨y, hy, h⟩ := h
    obtain ⟨v, T, h1, h2, h3⟩ := telling_suits t y h
    match xs, hy with
    | ⟨_ :: xs, hl⟩, rfl =>
      obtain ⟨vs, e⟩ := mapL_total (f := t.toSql none) (fun x => toSql_total t _ x) xs
      refine ⟨.array (v :: vs), .array T, ?_, ?_, T, rfl, ?_⟩
      · show arrayToSql _ _ _ = _
        unfold arrayToSql
        rw [elemHint_none]
        simp only [Res.mapL, h1, e, Res.bind_ok]
      · simp only [Value.guessType, Value.guessFirst, h2, Res.bind_ok]
      · rw [guess_strip h2]; exact h3
  | .option t, x, h => by
    obtain ⟨y, rfl, hn, h⟩ := h
    obtain ⟨v, T, h1, h2, h3⟩ := telling_suits t y h
    refine ⟨v, T, h1, h2, .inr ⟨(guess_form h2).2 ?_, h3⟩⟩
    rintro rfl
    exact hn (nullLike_of_null t none y h1)
  | .box t, x, h => telling_suits t x h
  | .vecTuple t, x, h => h.elim
  | .tuple ts, x, h => by
    obtain ⟨vs, Ts, h1, h2, h3⟩ := tellingAll_suits ts x h
    refine ⟨.tuple vs, .tuple Ts, ?_, ?_, Ts, rfl, h3⟩
    · show (RT.toSqls ts [] x >>= _) = _
      rw [h1]; rfl
    · simp only [Value.guessType, h2, Res.bind_ok]
  | .map k w, es, h => by
    obtain ⟨e, he, hk, hw⟩ := h
    obtain ⟨a, K, a1, a2, a3⟩ := telling_suits k e.1 hk
    obtain ⟨b, V, b1, b2, b3⟩ := telling_suits w e.2 hw
    match es, he with
    | _ :: es, rfl =>
      obtain ⟨kvs, f⟩ := mapL_total (f := fun e : k.den × w.den => k.toSql none e.1 >>= fun a => w.toSql none e.2 >>= fun b => Res.ok (a, b)) (fun x => by
        obtain ⟨a, e1⟩ := toSql_total k none x.1
        obtain ⟨b, e2⟩ := toSql_total w none x.2
        exact ⟨(a, b), by simp only [e1, e2, Res.bind_ok]⟩) es
      refine ⟨.map (a :: kvs.map Prod.fst) (b :: kvs.map Prod.snd), .map K V, ?_, ?_, K, V, rfl, ?_, ?_⟩
      · show mapToSql _ _ none _ = _
        unfold mapToSql
        have : Res.mapL (fun e : k.den × w.den => k.toSql none e.1 >>= fun a => w.toSql none e.2 >>= fun b => Res.ok (a, b)) (e :: es) = .ok ((a, b) :: kvs) := by
          simp only [Res.mapL, a1, b1, f, Res.bind_ok]
        exact (congrArg (fun z => z >>= fun kvs : List (Value × Value) => Res.ok (Value.map (kvs.map Prod.fst) (kvs.map Prod.snd))) this)
      · simp only [Value.guessType, Value.guessFirst, a2, b2, Res.bind_ok]
      · rw [guess_strip a2]; exact a3
      · rw [guess_strip b2]; exact b3
theorem tellingAll_suits : ∀ (ts : List RT) (x : RT.dens ts), TellingAll ts x →
    ∃ vs Ts, RT.toSqls ts [] x = .ok vs ∧ Value.guessAll vs = .ok Ts ∧ SuitsAll false ts Ts
  | [], _, _ => ⟨[], [], rfl, rfl, rfl⟩
  | t :: ts, x, h => by
    obtain ⟨v, T, h1, h2, h3⟩ := telling_suits t x.1 h.1
    obtain ⟨vs, Ts, k1, k2, k3⟩ := tellingAll_suits ts x.2 h.2
    refine ⟨v :: vs, T :: Ts, ?_, ?_, T, Ts, rfl, ?_, k3⟩
    · simp only [RT.toSqls, List.head?_nil, List.tail_nil, h1, k1, Res.bind_ok]
    · simp only [Value.guessAll, h2, k2, Res.bind_ok]
    · rw [guess_strip h2]; exact h3
end

theorem telling_rt (t : RT) (x : t.den) (h : Telling t x) (hs : Sound t x) :
    ∃ v T, t.toSql none x = .ok v ∧ v.guessType = .ok T ∧ t.fromSql T v = .ok x := by
  obtain ⟨v, T, h1, h2, h3⟩ := telling_suits t x h
  obtain ⟨w, k1, k2⟩ := conv_rt t T false none x h3 ⟨(fun h => by cases h), .inl rfl⟩ (sound_faithful t T x hs)
  rw [h1] at k1
  cases k1
  exact ⟨v, T, h1, h2, k2⟩

theorem members_rt {t : RT} : ∀ (xs : List t.den), (∀ x ∈ xs, ∃ v T, t.toSql none x = .ok v ∧ v.guessType = .ok T ∧ t.fromSql T v = .ok x) →
    ∃ vs Ts, mapHints t.toSql [] xs = .ok vs ∧ Value.guessAll vs = .ok Ts ∧ vs.length = Ts.length ∧ mapTypes t.fromSql Ts vs = .ok xs
  | [], _ => ⟨[], [], rfl, rfl, rfl, rfl⟩
  | x :: xs, h => by
    obtain ⟨v, T, h1, h2, h3⟩ := h x (List.mem_cons_self ..)
    obtain ⟨vs, Ts, k1, k2, k3, k4⟩ := members_rt xs (fun y hy => h y (List.mem_cons_of_mem _ hy))
    refine ⟨v :: vs, T :: Ts, ?_, ?_, by simp [k3], ?_⟩
    · simp only [mapHints, List.head?_nil, List.tail_nil, h1, k1, Res.bind_ok]
    · simp only [Value.guessAll, h2, k2, Res.bind_ok]
    · simp only [mapTypes, h3, k4, Res.bind_ok]

mutual
/-- An inferable value is read from the type inferred for it. -/
theorem infer_rt : ∀ (t : RT) (x : t.den), Inferable t x → ∃ v T, t.toSql none x = .ok v ∧ v.guessType = .ok T ∧ t.fromSql T v = .ok x
  | .prim p, x, _ => telling_rt (.prim p) x trivial trivial
  | .string, x, _ => telling_rt .string x trivial trivial
  | .bytes, x, _ => telling_rt .bytes x trivial trivial
  | .value, v, h => telling_rt .value v h trivial
  | .vec t, xs, h => by
    rcases h with rfl | ⟨h, hs⟩
    · exact ⟨.array [], .array .string, rfl, rfl, rfl⟩
    · exact telling_rt (.vec t) xs h hs
  | .array t n, xs, h => by
    rcases h with rfl | ⟨h, hs⟩
    · obtain ⟨xs, hx⟩ := xs
      have : xs = [] := List.eq_nil_of_length_eq_zero hx
      subst this
      exact ⟨.array [], .array .string, rfl, rfl, rfl⟩
    · exact telling_rt (.array t n) xs h hs
  | .option t, x, h => by
    match x, h with
    | none, _ => exact ⟨.null, _, rfl, rfl, rfl⟩
    | some y, h =>
      obtain ⟨hn, h⟩ := h y rfl
      obtain ⟨v, T, h1, h2, h3⟩ := infer_rt t y h
      have hv : v ≠ .null := by
        rintro rfl
        exact hn (nullLike_of_null t none y h1)
      refine ⟨v, T, h1, h2, optionFromSql_some hv ?_⟩
      have e : someTy T = T := by
        have := (guess_form h2).2 hv
        cases T <;> first | rfl | cases this
      rw [e]; exact h3
  | .box t, x, h => infer_rt t x h
  | .vecTuple t, xs, h => by
    obtain ⟨vs, Ts, h1, h2, h3, h4⟩ := members_rt xs (fun x hx => infer_rt t x (h x hx))
    refine ⟨.tuple vs, .tuple Ts, ?_, ?_, ?_⟩
    · show (mapHints t.toSql [] xs >>= _) = _
      rw [h1]; rfl
    · simp only [Value.guessType, h2, Res.bind_ok]
    · show vecTupleFromSql _ _ _ = _
      unfold vecTupleFromSql
      simp only [h3, if_true, h4]
      rfl
  | .tuple ts, x, h => by
    obtain ⟨vs, Ts, h1, h2, h3, h4, h5⟩ := infers_rt ts x h
    refine ⟨.tuple vs, .tuple Ts, ?_, ?_, ?_⟩
    · show (RT.toSqls ts [] x >>= _) = _
      rw [h1]; rfl
    · simp only [Value.guessType, h2, Res.bind_ok]
    · show tupleFromSql _ _ _ _ = _
      unfold tupleFromSql
      simp only [h3, h4, h5]
      rfl
  | .map k v, es, h => by
    rcases h with rfl | ⟨h, hs⟩
    · exact ⟨.map [] [], .map .string .string, rfl, rfl, rfl⟩
    · exact telling_rt (.map k v) es h hs
theorem infers_rt : ∀ (ts : List RT) (x : RT.dens ts), InferableAll ts x →
    ∃ vs Ts, RT.toSqls ts [] x = .ok vs ∧ Value.guessAll vs = .ok Ts ∧ vs.length = Ts.length ∧ Ts.length = ts.length ∧ RT.fromSqls ts Ts vs = .ok x
  | [], _, _ => ⟨[], [], rfl, rfl, rfl, rfl, rfl⟩
  | t :: ts, x, h => by
    obtain ⟨v, T, h1, h2, h3⟩ := infer_rt t x.1 h.1
    obtain ⟨vs, Ts, k1, k2, k3, k4, k5⟩ := infers_rt ts x.2 h.2
    refine ⟨v :: vs, T :: Ts, ?_, ?_, by simp [k3], by simp [k4], ?_⟩
    · simp only [RT.toSqls, List.head?_nil, List.tail_nil, h1, k1, Res.bind_ok]
    · simp only [Value.guessAll, h2, k2, Res.bind_ok]
    · rw [← guess_strip h2] at h3
      simp only [RT.fromSqls, h3, k5, Res.bind_ok]
      rfl
end

/-! ### C77 -/

/-- C77: a cell set without a type is fetched, by its name, as the value that was set, whatever the row held before. -/
theorem C77_inferred_partial (t : RT) (r : RawRow) (name : Str) (x : t.den) (hn : name ≠ []) (hx : Inferable t x) :
    ∃ r', r.trySetTyped t name none x = (.ok (), r') ∧ (r'.tryGet t (.named name)).1 = .ok x := by
  obtain ⟨v, T, h1, h2, h3⟩ := infer_rt t x hx
  obtain ⟨r', k1, k2, _⟩ := C53_set t r name none x T v h1 (.inr ⟨rfl, h2⟩) hn
  refine ⟨r', k1, ?_⟩
  unfold RawRow.tryGet
  rw [k2, Res.bind_ok]
  exact h3

/-- C77 is false for lists that start with an empty list: `set("c", vec![vec![], vec![1u32]])` succeeds, and the cell cannot be read back. -/
theorem C77_empty_false (r : RawRow) (name : Str) (hn : name ≠ []) :
    ∃ (x : (RT.vec (.vec (.prim .u32))).den) (r' : RawRow), r.trySetTyped (.vec (.vec (.prim .u32))) name none x = (.ok (), r') ∧
      (r'.tryGet (.vec (.vec (.prim .u32))) (.named name)).1 = .err (unexpectedType .string) := by
  obtain ⟨r', k1, k2, _⟩ := C53_set (.vec (.vec (.prim .u32))) r name none [[], [(1#32)]] (.array (.array .string)) (.array [.array [], .array [.uint32 1#32]])
    rfl (.inr ⟨rfl, rfl⟩) hn
  refine ⟨_, r', k1, ?_⟩
  unfold RawRow.tryGet
  rw [k2, Res.bind_ok]
  rfl

/-- C77 is false for lists that start with `None`: `set("c", vec![None, Some(1u32)])` succeeds, and the cell cannot be read back. -/
theorem C77_null_false (r : RawRow) (name : Str) (hn : name ≠ []) :
    ∃ (x : (RT.vec (.option (.prim .u32))).den) (r' : RawRow), r.trySetTyped (.vec (.option (.prim .u32))) name none x = (.ok (), r') ∧
      (r'.tryGet (.vec (.option (.prim .u32))) (.named name)).1 = .err (unexpectedType .string) := by
  obtain ⟨r', k1, k2, _⟩ := C53_set (.vec (.option (.prim .u32))) r name none [none, some (1#32)] (.array (.nullable .string)) (.array [.null, .uint32 1#32])
    rfl (.inr ⟨rfl, rfl⟩) hn
  refine ⟨_, r', k1, ?_⟩
  unfold RawRow.tryGet
  rw [k2, Res.bind_ok]
  rfl

/-- C77 is false for enums: setting one without a type panics, in `try_set` as well. -/
theorem C77_enum_false (r : RawRow) (name : Str) (x : BitVec 8) : (r.trySetTyped .value name none (.enum8 x)).1 = .panic := rfl

/-- C77: when a type is given, it is the one the cell gets; the value is fetched as it was set whenever the type goes with the Rust type. -/
theorem C77_typed (t : RT) (r : RawRow) (name : Str) (T : Ty) (x : t.den) (hn : name ≠ []) (hs : Suits true t T) (hx : Faithful t T x) :
    ∃ r', r.trySetTyped t name (some T) x = (.ok (), r') ∧ (r'.tryGet t (.named name)).1 = .ok x := by
  obtain ⟨v, h1, h2⟩ := conv_rt t T true (some T) x hs ⟨fun _ => rfl, .inr (.inl rfl)⟩ hx
  obtain ⟨r', k1, k2, _⟩ := C53_set t r name (some T) x T v h1 (.inl rfl) hn
  refine ⟨r', k1, ?_⟩
  unfold RawRow.tryGet
  rw [k2, Res.bind_ok]
  exact h2

/-- A tuple of an optional list of maps and a text. -/
example : Inferable (.tuple [.option (.vec (.map .string (.prim .i16))), .string])
    ((some [[(ch! "a", (5 : BitVec 16)), (ch! "b", (6 : BitVec 16))], []], ch! "x", ()) : Option (List (List (Str × BitVec 16))) × Str × Unit) := by
  refine ⟨fun y hy => ?_, trivial, trivial⟩
  cases hy
  refine ⟨fun h => h, .inr ⟨⟨_, rfl, _, rfl, trivial, trivial⟩, fun m hm => ?_⟩⟩
  rcases List.mem_cons.mp hm with rfl | hm
  · exact ⟨.cons (by intro e he; have he := List.mem_singleton.mp he; subst he; rfl) (.cons (by intro e he; cases he) .nil), fun _ _ => ⟨trivial, trivial⟩⟩
  · have hm := List.mem_singleton.mp hm; subst hm; exact ⟨.nil, fun e he => by cases he⟩
example := C77_empty_false [] (ch! "c") (by decide)

end Klick
