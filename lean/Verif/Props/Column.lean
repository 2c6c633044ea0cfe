import Verif.CodecLayout
/-
Properties C04 to C13: column codecs.
-/
namespace Klick.Props
open Klick Klick.Spec

/-- A configuration for the concrete cases below. -/
def cfgDebug : Cfg := ⟨true, true, fun _ => true, fun _ => false, fun _ => false⟩
/-- A release build without the `bfloat16` feature. -/
def cfgRelease : Cfg := ⟨false, false, fun _ => true, fun _ => false, fun _ => false⟩

/-! ## C04 fixed-width layout -/

/-- C04: a column of a fixed-width type is the concatenation of its values' bytes in ClickHouse's
layout (`wireBytes`), each value taking exactly its type's width, and reading those bytes gives the
values back bit for bit. -/
theorem C04_scalar_layout (cfg : Cfg) (t : Ty) (w : Nat) (hw : wireSize t = some w)
    (hf : t = .bfloat16 → cfg.bf16 = true) (vs : List Value) (hv : ∀ v ∈ vs, Storable cfg t v)
    (hn : vs.length ≤ 2 ^ 30) (rest : Bytes) :
    serCol cfg t vs = .ok (vs.map wireBytes).flatten ∧
    (∀ v ∈ vs, (wireBytes v).length = w) ∧
    deCol cfg t vs.length ((vs.map wireBytes).flatten ++ rest) = .ok (vs.map (canon t), rest) := by
  have hs := wireSize_sized hw
  have hwf : WellFormed cfg t := by
    cases t <;> first | (cases hw; done) | exact .bfloat16 (hf rfl) | constructor
  have hsc : t.isScalar = true := by
    cases t <;> first | exact hs | rfl
  have hser : serCol cfg t vs = .ok (vs.map wireBytes).flatten := by
    rw [serCol_sized hs]
    unfold serSized
    rw [Res.mapL_ok_of_forall (g := wireBytes) (fun v h => by
      simp only [justify_of_not_null (storable_not_null hsc (hv v h)), Res.bind_ok]
      exact serSized1_layout hs hwf (hv v h))]
    rfl
  refine ⟨hser, fun v h => wireBytes_length hw (hv v h), ?_⟩
  obtain ⟨b, h1, h2⟩ := scalar_rt hsc hwf vs hv (by cases t <;> first | exact hn | (cases hs; done))
  rw [hser] at h1
  rw [Res.ok.inj h1]
  exact h2 rest

/-- What reading gives back is the very value written: only a `UInt8` put into an `Int8` column
changes kind (not bits). -/
theorem C04_scalar_exact (cfg : Cfg) (t : Ty) (w : Nat) (hw : wireSize t = some w) (v : Value)
    (hv : Storable cfg t v) (h8 : t ≠ .int8) : canon t v = v := by
  cases t <;> first | rfl | (cases hw; done) | exact absurd rfl h8

example : serCol cfgDebug .uuid [.uuid 0x00112233445566778899AABBCCDDEEFF] =
    .ok [0x77, 0x66, 0x55, 0x44, 0x33, 0x22, 0x11, 0x00,
         0xFF, 0xEE, 0xDD, 0xCC, 0xBB, 0xAA, 0x99, 0x88] := rfl
example : serCol cfgDebug .int256 [.int256 (BitVec.ofInt 256 (-2))] =
    .ok (0xFE :: List.replicate 31 0xFF) := rfl
example := C04_scalar_layout cfgDebug .uint32 4 rfl (by simp) [.uint32 5, .uint32 0xDEADBEEF]
  (by simp [Storable]) (by simp) [9]

/-! ## C05 FixedString -/

/-- C05: whatever strings (or byte arrays) are written to a `FixedString(n)` column, every row takes
exactly `n` bytes, and each is read back cut to its first `n` bytes and at the first NUL. -/
theorem C05_fixed_string (cfg : Cfg) (n : Nat) (bs : List Bytes) (hn : bs.length ≤ 2 ^ 30) :
    ∃ rows : List Bytes, serCol cfg (.fixedString n) (bs.map .string) = .ok rows.flatten ∧
      rows.length = bs.length ∧ (∀ r ∈ rows, r.length = n) ∧
      (n < 2 ^ 63 → ∀ rest, deCol cfg (.fixedString n) bs.length (rows.flatten ++ rest) =
        .ok (bs.map (fun b => .string ((b.take n).takeWhile (fun x => x != 0#8))), rest)) := by
  have hm : Res.mapL (fun v : Value => v.justifyNull cfg (.fixedString n) >>= serString1 (.fixedString n))
      (bs.map Value.string) = .ok (bs.map (emitBytes (.fixedString n))) := by
    induction bs with
    | nil => rfl
    | cons b bs ih =>
      simp only [List.map_cons, Res.mapL, ih (by simp at hn; omega)]
      rfl
  have hser : serCol cfg (.fixedString n) (bs.map .string) =
      .ok (bs.map (emitBytes (.fixedString n))).flatten := by
    show serStrings _ _ _ = _
    unfold serStrings
    rw [hm]; rfl
  refine ⟨bs.map (emitBytes (.fixedString n)), hser, by simp, ?_, ?_⟩
  · intro r hr
    rw [List.mem_map] at hr
    obtain ⟨b, _, rfl⟩ := hr
    exact emitFixed_length n b
  · intro h63 rest
    obtain ⟨b, h1, h2⟩ := col_rt cfg (.fixedString n) (.fixedString h63) (bs.map .string)
      (by intro v hv; rw [List.mem_map] at hv; obtain ⟨b, _, rfl⟩ := hv; simp [Storable])
      (by simpa [Fits] using hn)
    rw [hser] at h1
    have := h2 rest
    rw [← Res.ok.inj h1, List.length_map, List.map_map] at this
    exact this

/-- C05, when it is lossless: exactly for strings of at most `n` bytes without a NUL byte. -/
theorem C05_lossless_iff (n : Nat) (b : Bytes) :
    canon (.fixedString n) (.string b) = .string b ↔ b.length ≤ n ∧ ∀ x ∈ b, x ≠ 0#8 := by
  have key : ∀ (n : Nat) (b : Bytes), (b.take n).takeWhile (fun x => x != 0#8) = b ↔
      b.length ≤ n ∧ ∀ x ∈ b, x ≠ 0#8 := by
    intro n b
    induction b generalizing n with
    | nil => simp
    | cons x b ih =>
      cases n with
      | zero => simp
      | succ n =>
        simp only [List.take_succ_cons, List.takeWhile_cons]
        by_cases hx : x = 0#8
        · simp [hx]
        · simp only [bne_iff_ne, ne_eq, hx, not_false_eq_true, if_true, List.cons.injEq, true_and,
            ih n, List.length_cons, Nat.add_le_add_iff_right, List.mem_cons, forall_eq_or_imp]
  simp only [canon, Value.string.injEq]
  exact key n b

example : deCol cfgDebug (.fixedString 4) 1 ([0x61, 0x62, 0, 0x63] ++ [1]) =
    .ok ([.string [0x61, 0x62]], [1]) := rfl

/-! ## C06 round trip -/

/-- C06: for every well-formed column type, however nested, and every list of values it can hold
within the protocol's size limit, writing state prefix and data and reading them back returns the
values in order (in the normal form `canon`) and leaves the bytes after the column untouched. -/
theorem C06_column_roundtrip (cfg : Cfg) (t : Ty) (ht : WellFormed cfg t) (vs : List Value)
    (hv : ∀ v ∈ vs, Storable cfg t v) (hf : Fits t vs) :
    ∃ b, serCol cfg t vs = .ok b ∧ ∀ rest,
      (dePrefix t >>= fun _ => deCol cfg t vs.length) (serPrefix t ++ b ++ rest) =
        .ok (vs.map (canon t), rest) := by
  obtain ⟨b, h1, h2⟩ := col_rt cfg t ht vs hv hf
  refine ⟨b, h1, fun rest => ?_⟩
  rw [List.append_assoc, Rd.bind_run_ok (prefix_rt cfg t ht _)]
  exact h2 rest

/-- Every type accepted by type validation is covered by C06. -/
theorem C06_covers_validated (cfg : Cfg) (t : Ty) (h : t.validate = true)
    (hb : ¬ unsupported cfg t = true) : WellFormed cfg t :=
  wf_of_validate t h hb

mutual
/-- The normal form is a normal form: what was read back is read back unchanged. -/
theorem C06_canon_idem : ∀ (t : Ty) (v : Value), canon t (canon t v) = canon t v
  | .array t, v => by
    cases v <;> try rfl
    simp only [canon, List.map_map, Value.array.injEq]
    exact List.map_congr_left (fun x _ => C06_canon_idem t x)
  | .nullable t, v => by
    cases hv : v.isNull with
    | true => cases v <;> first | rfl | (cases hv; done)
    | false =>
      rw [canon_null_of_nullable v, hv]
      simp only [Bool.false_eq_true, if_false]
      rw [canon_null_of_nullable]
      split
      · rename_i h
        cases hc : canon t v <;> rw [hc] at h <;> first | rfl | (cases h; done)
      · exact C06_canon_idem t v
  | .lowCardinality t, v => by simp only [canon]; exact C06_canon_idem t v
  | .map k t, v => by
    cases v <;> try rfl
    simp only [canon, List.map_map, Value.map.injEq]
    exact ⟨List.map_congr_left (fun x _ => C06_canon_idem k x),
      List.map_congr_left (fun x _ => C06_canon_idem t x)⟩
  | .tuple ts, v => by
    cases v <;> try rfl
    simp only [canon, Value.tuple.injEq]
    exact C06_canonAll_idem ts _
  | .fixedString n, v => by
    have key : ∀ (b : Bytes) (n : Nat), (((b.take n).takeWhile (fun x => x != 0#8)).take n).takeWhile
        (fun x => x != 0#8) = (b.take n).takeWhile (fun x => x != 0#8) := by
      intro b
      induction b with
      | nil => intro n; simp
      | cons x b ih =>
        intro n
        cases n with
        | zero => simp
        | succ n =>
          simp only [List.take_succ_cons, List.takeWhile_cons]
          by_cases hx : (x != 0#8) = true
          · simp [hx, ih]
          · simp [hx]
    cases v <;> first
      | rfl
      | (simp only [canon, key])
  | .string, v => by cases v <;> rfl
  | .int8, v => by cases v <;> rfl
  | .int16, _ => rfl | .int32, _ => rfl | .int64, _ => rfl | .int128, _ => rfl | .int256, _ => rfl
  | .uint8, _ => rfl | .uint16, _ => rfl | .uint32, _ => rfl | .uint64, _ => rfl
  | .uint128, _ => rfl | .uint256, _ => rfl | .float32, _ => rfl | .float64, _ => rfl
  | .bfloat16, _ => rfl | .decimal32 _, _ => rfl | .decimal64 _, _ => rfl | .decimal128 _, _ => rfl
  | .decimal256 _, _ => rfl | .uuid, _ => rfl | .date, _ => rfl | .dateTime _, _ => rfl
  | .dateTime64 _ _, _ => rfl | .ipv4, _ => rfl | .ipv6, _ => rfl | .point, _ => rfl
  | .ring, _ => rfl | .polygon, _ => rfl | .multiPolygon, _ => rfl | .enum8 _, _ => rfl
  | .enum16 _, _ => rfl
theorem C06_canonAll_idem : ∀ (ts : List Ty) (vs : List Value),
    canonAll ts (canonAll ts vs) = canonAll ts vs
  | [], _ => rfl
  | t :: ts, vs => by
    cases vs with
    | nil => rfl
    | cons v vs =>
      simp only [canonAll, List.cons.injEq]
      exact ⟨C06_canon_idem t v, C06_canonAll_idem ts vs⟩
end

/-- A concrete nested case: `Array(Tuple(Nullable(String), LowCardinality(Nullable(UInt16))))`. -/
def exTy : Ty := .array (.tuple [.nullable .string, .lowCardinality (.nullable .uint16)])
/-- Three rows of it, with NULLs, an empty array and repeated dictionary values. -/
def exVals : List Value :=
  [.array [.tuple [.string [0x61], .uint16 7], .tuple [.null, .null]], .array [],
   .array [.tuple [.string [], .uint16 7]]]
theorem exTy_wf : WellFormed cfgRelease exTy := wf_of_validate _ rfl (by decide)
theorem exVals_storable : ∀ v ∈ exVals, Storable cfgRelease exTy v := by
  intro v hv
  apply storable_of_valid
  · revert v; simp [exVals, exTy, Ty.innerValidate, Ty.innerValidateZip, Value.isNull]
  · revert v; simp [exVals, exTy, Regular, RegularAll, elems, members, isGeo]
theorem exVals_fits : Fits exTy exVals := by
  simp [exVals, exTy, Fits, FitsAll, elems, members]
example := C06_column_roundtrip cfgRelease exTy exTy_wf exVals exVals_storable exVals_fits

/-! ## C07 row count -/

/-- C07 is false of the code: a `LowCardinality` column whose flag word announces neither dictionary
is accepted and yields no rows at all although one was announced. -/
theorem C07_row_count_false :
    ¬ ∀ (cfg : Cfg) (t : Ty) (n : Nat) (s s' : Bytes) (vs : List Value),
      deCol cfg t n s = .ok (vs, s') → vs.length = n := by
  intro h
  have := h cfgRelease (.lowCardinality .string) 1 (List.replicate 8 0#8 ++ [1, 0, 0, 0, 0, 0, 0, 0, 0])
    [] [] rfl
  simp at this

/-- C07 for all types but `LowCardinality` itself, bare or inside `Nullable` (arrays, maps and tuples of it are covered): missing are those
columns, for which only "at most `n`" holds (`C07_row_count_le`). -/
theorem C07_row_count_partial (cfg : Cfg) (t : Ty) (h : rowsByIndex t = false) (n : Nat) (s s' : Bytes)
    (vs : List Value) (hr : deCol cfg t n s = .ok (vs, s')) : vs.length = n :=
  (deCol_rows t n s s' vs hr).2 h

/-- For every type and every stream, never more rows than announced. -/
theorem C07_row_count_le (cfg : Cfg) (t : Ty) (n : Nat) (s s' : Bytes)
    (vs : List Value) (hr : deCol cfg t n s = .ok (vs, s')) : vs.length ≤ n :=
  (deCol_rows t n s s' vs hr).1

example : deCol cfgRelease (.array .uint8) 2 [1,0,0,0,0,0,0,0, 3,0,0,0,0,0,0,0, 7,8,9, 4] =
    .ok ([.array [.uint8 7], .array [.uint8 8, .uint8 9]], [4]) := rfl

/-! ## C08 no panic -/

/-- C08 is false of the code in a debug build: array offsets that decrease overflow a subtraction. -/
theorem C08_no_panic_false_debug :
    deCol cfgDebug (.array .uint8) 2
      (le 8 2 ++ le 8 1 ++ [5]) = .panic := rfl

/-- C08 is false of the code in every build: map offsets beyond the last one exhaust the keys. -/
theorem C08_no_panic_false_map (cfg : Cfg) :
    deCol cfg (.map .uint8 .uint8) 2 (le 8 2 ++ le 8 1 ++ [5, 6]) = .panic := rfl

/-- C08 is false of the code in every build: a short `LowCardinality` column of map keys fails an
assertion. -/
theorem C08_no_panic_false_lc_map (cfg : Cfg) :
    deCol cfg (.map (.lowCardinality .string) .uint8) 1
      (le 8 1 ++ le 8 0 ++ le 8 1 ++ [0] ++ [5]) = .panic := rfl

/-- C08 is false of the code in every build: the buffer of a `FixedString` longer than memory is reserved before anything is read. -/
theorem C08_no_panic_false_fixed (cfg : Cfg) (s : Bytes) : deCol cfg (.fixedString (2 ^ 63)) 1 s = .panic := by
  show guardRows 1 (Rd.rep 1 (if 2 ^ 63 > maxAlloc then Rd.panic else _)) s = .panic
  rw [if_pos (by decide)]
  rfl

theorem C08_no_panic_false : ¬ ∀ (cfg : Cfg) (t : Ty) (n : Nat) (s : Bytes),
    deCol cfg t n s ≠ .panic := fun h => h _ _ _ _ (C08_no_panic_false_map cfgRelease)

/-- C08 for every stream and every type without `Map`, in which `Nullable` and `LowCardinality` wrap
scalar or geometric types; types carrying array offsets need a build without overflow checks, and
`BFloat16` needs its feature, `FixedString` a length below 2^63. Missing: maps, and arrays in debug builds, where the claim is false. -/
theorem C08_no_panic_partial (cfg : Cfg) (t : Ty) (hm : usesMap t = false)
    (hn : flatNullable t = true) (ho : usesOffsets t = true → cfg.overflowChecks = false)
    (hb : ¬ unsupported cfg t = true) (n : Nat) (s : Bytes) : deCol cfg t n s ≠ .panic :=
  deCol_ne_panic t hm hn ho hb n s

example (n : Nat) (s : Bytes) : deCol cfgRelease exTy n s ≠ .panic :=
  C08_no_panic_partial cfgRelease exTy rfl rfl (fun _ => rfl) (by decide) n s

/-! ## C09 array and map layout -/

/-- C09, arrays: whenever a column of arrays is written, it consists of one 64-bit little-endian
offset per row, the `i`-th being the number of elements of rows `0..i`, followed by the column of all
elements in row order. -/
theorem C09_array_layout (cfg : Cfg) (t : Ty) (xss : List (List Value)) (b : Bytes)
    (h : serCol cfg (.array t) (xss.map .array) = .ok b) :
    ∃ body, serCol cfg t xss.flatten = .ok body ∧
      b = ((endOffsets (xss.map List.length)).map (leBytes 8)).flatten ++ body := by
  have hm : Res.mapL Value.unwrapArray (xss.map .array) = .ok xss := by
    clear h
    induction xss with
    | nil => rfl
    | cons x xss ih => simp only [List.map_cons, Res.mapL, Value.unwrapArray, ih, Res.bind_ok]
  simp only [serCol, hm, Res.bind_ok, Res.bind_eq_ok] at h
  obtain ⟨body, h1, h2⟩ := h
  exact ⟨body, h1, by rw [← offsetsFrom_spec]; exact (Res.ok.inj h2).symm⟩

/-- The element column really has as many entries as the last offset says. -/
theorem C09_last_offset (lens : List Nat) : (endOffsets lens).getLastD 0 = lens.sum := by
  have h1 := getLastD_prefixSums 0 lens
  rw [prefixSums_spec] at h1
  simpa using h1

/-- C09, maps: a map column is laid out exactly as the array of its key/value tuples. -/
theorem C09_map_layout (cfg : Cfg) (k t : Ty) (kvs : List (List Value × List Value))
    (h : ∀ p ∈ kvs, p.1.length = p.2.length) :
    serCol cfg (.map k t) (kvs.map (fun p => .map p.1 p.2)) =
      serCol cfg (.array (.tuple [k, t])) (kvs.map (fun p => mapAsArray (.map p.1 p.2))) := by
  have h1 : Res.mapL Value.unwrapMap (kvs.map (fun p => .map p.1 p.2)) = .ok kvs := by
    induction kvs with
    | nil => rfl
    | cons p kvs ih =>
      simp only [List.map_cons, Res.mapL, Value.unwrapMap, h p (by simp), if_true,
        ih (fun q hq => h q (by simp [hq])), Res.bind_ok]
  let zs := kvs.map (fun p => List.zipWith (fun a c => Value.tuple [a, c]) p.1 p.2)
  have h2 : Res.mapL Value.unwrapArray (kvs.map (fun p => mapAsArray (.map p.1 p.2))) = .ok zs := by
    clear h h1
    show _ = Res.ok (kvs.map _)
    induction kvs with
    | nil => rfl
    | cons p kvs ih =>
      have ih' : Res.mapL Value.unwrapArray
          (kvs.map (fun p => Value.array (List.zipWith (fun k v => Value.tuple [k, v]) p.1 p.2))) =
          Res.ok _ := ih
      simp only [List.map_cons, Res.mapL, Value.unwrapArray, mapAsArray, ih', Res.bind_ok]
  have h3 : zs.map List.length = kvs.map (fun p => p.1.length) := by
    show (kvs.map _).map _ = _
    rw [List.map_map]
    apply List.map_congr_left
    intro p hp
    simp [h p hp]
  have hz : zs.flatten = List.zipWith (fun a c => Value.tuple [a, c]) (kvs.map Prod.fst).flatten
      (kvs.map Prod.snd).flatten := by
    clear h1 h2 h3
    show (kvs.map _).flatten = _
    induction kvs with
    | nil => rfl
    | cons p kvs ih =>
      simp only [List.map_cons, List.flatten_cons]
      rw [ih (fun q hq => h q (by simp [hq])), List.zipWith_append (h p (by simp))]
  have hl : (kvs.map Prod.fst).flatten.length = (kvs.map Prod.snd).flatten.length := by
    rw [List.length_flatten, List.length_flatten]
    congr 1
    simp only [List.map_map]
    exact List.map_congr_left h
  generalize hK : (kvs.map Prod.fst).flatten = K at hz hl
  generalize hV : (kvs.map Prod.snd).flatten = V at hz hl
  have h4 : Res.mapL Value.unwrapTuple zs.flatten = .ok (List.zipWith (fun a c => [a, c]) K V) := by
    rw [hz]
    clear hz hK hV
    induction K generalizing V with
    | nil => rfl
    | cons a K ih => cases V with
      | nil => rfl
      | cons c V => simp only [List.zipWith_cons_cons, Res.mapL, Value.unwrapTuple, Res.bind_ok, ih V (by simpa using hl)]
  have h5 : ∀ A B : List Value, pushRows [A, B] (List.zipWith (fun a c => [a, c]) K V) =
      .ok [A ++ K, B ++ V] := by
    clear hz hK hV h4
    induction K generalizing V with
    | nil => cases V with
      | nil => intro A B; simp [pushRows]
      | cons => simp at hl
    | cons a K ih => cases V with
      | nil => simp at hl
      | cons c V =>
        intro A B
        simp only [List.zipWith_cons_cons, pushRows, pushRow, Res.bind_ok, ih V (by simpa using hl)]
        simp
  have h6 := h5 [] []
  simp only [List.nil_append] at h6
  simp only [serCol, h1, h2, Res.bind_ok, h3, h4, hK, hV]
  have e : List.replicate [k, t].length ([] : List Value) = [[], []] := rfl
  rw [e, h6]
  simp only [Res.bind_ok, serCols]
  cases hk : serCol cfg k K with
  | ok kb =>
    cases hv : serCol cfg t V with
    | ok vb => simp
    | err e => rfl
    | panic => rfl
  | err e => rfl
  | panic => rfl

example : serCol cfgRelease (.map .uint8 .uint8)
    [.map [.uint8 1, .uint8 2] [.uint8 3, .uint8 4], .map [] []] =
    .ok ([2,0,0,0,0,0,0,0, 2,0,0,0,0,0,0,0] ++ [1, 2, 3, 4]) := rfl

/-! ## C10 LowCardinality -/

/-- C10: a non-empty `LowCardinality` column is written as flags, a dictionary and indexes such that:
the dictionary has no duplicates, starts with the NULL slot exactly when the type is nullable, holds
only (that slot and) values of the column; there is one index per row, inside the dictionary and
resolving to the row's value; the index width announced in the flags is 1, 2, 4 or 8 bytes and wide
enough for every index. -/
theorem C10_low_cardinality (cfg : Cfg) (t : Ty) (ht : t.lcAllowed = true) (hw : WellFormed cfg t) (nullable : Bool)
    (vs : List Value) (h0 : vs ≠ []) (hn : vs.length < 2 ^ 30)
    (hv : ∀ v ∈ vs, (nullable = true ∧ v = .null) ∨ Storable cfg t v) :
    ∃ (keys : List Value) (idx : List Nat) (code : Nat) (dict : Bytes),
      serCol cfg (.lowCardinality (if nullable then .nullable t else t)) vs =
        .ok (leBytes 8 (code + 512) ++ leBytes 8 keys.length ++ dict ++ leBytes 8 vs.length ++
          (idx.map (leBytes (2 ^ code))).flatten) ∧
      serCol cfg t keys = .ok dict ∧
      keys.Nodup ∧ (nullable = true → keys[0]? = some .null) ∧
      (∀ k ∈ keys, (nullable = true ∧ k = .null) ∨ k ∈ vs) ∧
      idx.length = vs.length ∧
      (∀ j (hj : j < vs.length), ∃ i, idx[j]? = some i ∧ keys[i]? = some vs[j]) ∧
      code ≤ 3 ∧ ∀ i ∈ idx, i < keys.length ∧ i < 256 ^ (2 ^ code) := by
  have hsc := lcAllowed_scalar ht
  have hkl : ∀ v ∈ vs, keyLike v = true := fun v h => by
    rcases hv v h with ⟨_, rfl⟩ | h
    · rfl
    · exact lcAllowed_keyLike ht h
  obtain ⟨hk1, hk2, hk3⟩ := lcKeys_spec nullable vs hkl
  have hkk : ∀ k ∈ lcKeys nullable vs, keyLike k = true := by
    intro k hk
    rcases (hk1 k).1 hk with ⟨_, rfl⟩ | h
    · rfl
    · exact hkl k h
  obtain ⟨dict, hd, _⟩ := scalar_col (cfg := cfg) hsc hw (vs := lcKeys nullable vs)
    (fun v h => by
      rcases (hk1 v).1 h with ⟨_, h⟩ | h
      · exact .inl h
      · rcases hv v h with ⟨_, h⟩ | h
        · exact .inl h
        · exact .inr h) (by omega)
  have hix : ∀ v ∈ vs, ∃ i, (lcKeys nullable vs).findIdx? (fun k => k.eqv v) = some i ∧
      (lcKeys nullable vs)[i]? = some v := fun v hvm => by
    obtain ⟨i, h1, h2, _⟩ := findIdx_key hkk ((hk1 v).2 (.inr hvm))
    exact ⟨i, h1, h2⟩
  let ix : Value → Nat := fun v => ((lcKeys nullable vs).findIdx? (fun k => k.eqv v)).getD 0
  have hcode : lcIndexWidth (lcKeys nullable vs).length = 2 ^ lcIndexCode (lcKeys nullable vs).length ∧
      lcIndexCode (lcKeys nullable vs).length ≤ 3 := by
    unfold lcIndexWidth lcIndexCode
    split
    · exact ⟨rfl, by decide⟩
    · split
      · exact ⟨rfl, by decide⟩
      · split
        · exact ⟨rfl, by decide⟩
        · exact ⟨rfl, by decide⟩
  have hflag : lcIndexCode (lcKeys nullable vs).length ||| 1 <<< 9 =
      lcIndexCode (lcKeys nullable vs).length + 512 := by
    unfold lcIndexCode
    split
    · rfl
    · split
      · rfl
      · split <;> rfl
  refine ⟨lcKeys nullable vs, vs.map ix, lcIndexCode (lcKeys nullable vs).length, dict, ?_, hd,
    lcKeys_nodup nullable vs hkl, hk3, fun k h => (hk1 k).1 h, by simp, ?_, hcode.2, ?_⟩
  · have hser : serCol cfg (.lowCardinality (if nullable then .nullable t else t)) vs =
        serLc (serCol cfg t) nullable vs := by
      cases nullable
      · exact serCol_lc_nonnull (lcAllowed_not_nullable ht) vs
      · rfl
    rw [hser]
    unfold serLc
    rw [if_neg (by simpa using h0)]
    simp only [hd, Res.bind_ok]
    rw [Res.mapL_ok_of_forall (g := fun v => le (lcIndexWidth (lcKeys nullable vs).length) (ix v))
      (fun v h => by
        obtain ⟨i, h1, _⟩ := hix v h
        simp [lcIndex1, ix, h1])]
    simp only [Res.bind_ok, writeU64, hflag, hcode.1, le_eq_leBytes, List.map_map, Function.comp_def]
  · intro j hj
    obtain ⟨i, h1, h2⟩ := hix vs[j] (List.getElem_mem hj)
    refine ⟨i, ?_, h2⟩
    rw [List.getElem?_map, List.getElem?_eq_getElem hj]
    simp [ix, h1]
  · intro i hi
    rw [List.mem_map] at hi
    obtain ⟨v, hvm, rfl⟩ := hi
    obtain ⟨i, h1, h2⟩ := hix v hvm
    have hlt : i < (lcKeys nullable vs).length := (List.getElem?_eq_some_iff.1 h2).1
    have hi' : ix v = i := by simp [ix, h1]
    rw [hi']
    refine ⟨hlt, ?_⟩
    rw [← hcode.1]
    exact lcIndex_bound hlt (by omega)

example : serCol cfgRelease (.lowCardinality (.nullable .uint8)) [.uint8 9, .null, .uint8 9] =
    .ok (leBytes 8 512 ++ leBytes 8 2 ++ [0, 9] ++ leBytes 8 3 ++ [1, 0, 1]) := rfl

/-! ## C11 Nullable -/

/-- C11, writing: one mask byte per row, 1 exactly for NULL, then the full inner column in which each
NULL is replaced by the inner type's default value. -/
theorem C11_nullable_write (cfg : Cfg) (t : Ty) (ht : t.nullableRefused = false)
    (hg : isGeo t = false) (hw : WellFormed cfg t) (vs : List Value)
    (hv : ∀ v ∈ vs, v = .null ∨ Storable cfg t v) (hn : vs.length ≤ 2 ^ 30) :
    ∃ d inner, t.defaultValue cfg = .ok d ∧ Storable cfg t d ∧
      serCol cfg t (vs.map (fun v => if v.isNull then d else v)) = .ok inner ∧
      serCol cfg (.nullable t) vs =
        .ok (vs.map (fun v => if v.isNull then 1#8 else 0#8) ++ inner) := by
  have hs : t.isScalar = true := by
    rcases scalar_or_geo ht with h | h
    · exact h
    · rw [hg] at h; cases h
  have hd : ∃ d, t.defaultValue cfg = .ok d ∧ Storable cfg t d ∧ d.isNull = false := by
    by_cases hz : t.isSized = true
    · exact default_sized hz hw
    · cases t <;> first
        | (cases hs; done)
        | (exact absurd rfl hz)
        | exact ⟨_, rfl, by simp [Storable], rfl⟩
  obtain ⟨d, d1, d2, d3⟩ := hd
  obtain ⟨inner, h1, _⟩ := scalar_col hs hw hv hn
  refine ⟨d, inner, d1, d2, ?_, ?_⟩
  · rw [← serCol_justify hs d1 d3]; exact h1
  · simp only [serCol, h1, Res.bind_ok]

/-- C11, reading: whatever bytes arrive, a nullable column read successfully is the inner column with
exactly the rows whose mask byte is non-zero replaced by NULL. -/
theorem C11_nullable_read (cfg : Cfg) (t : Ty) (hl : rowsByIndex t = false) (n : Nat) (s s' : Bytes)
    (out : List Value)
    (h : deCol cfg (.nullable t) n s = .ok (out, s')) :
    ∃ mask inner s1, s = mask ++ s1 ∧ mask.length = n ∧ deCol cfg t n s1 = .ok (inner, s') ∧
      inner.length = n ∧
      out = List.zipWith (fun m v => if m != 0#8 then .null else v) mask inner := by
  have h := (guardRows_eq_ok h).2
  simp only [Rd.bind_eq_ok] at h
  obtain ⟨mask, s1, h1, inner, s2, h2, h3⟩ := h
  obtain ⟨e1, e2⟩ := readExact_ok h1
  obtain ⟨hx, e0⟩ := Rd.lift_eq_ok h3
  subst e0
  have e3 := (deCol_rows t n _ _ _ h2).2 hl
  refine ⟨mask, inner, s1, e1, e2, h2, e3, ?_⟩
  have hl : mask.length = inner.length := by omega
  clear h1 h2 e1 e2 e3 h h3
  induction mask generalizing inner out with
  | nil =>
    cases inner with
    | nil => simp only [applyMask, Res.ok.injEq] at hx; simp [← hx]
    | cons => simp at hl
  | cons m mask ih =>
    cases inner with
    | nil => simp at hl
    | cons v inner =>
      simp only [applyMask, Res.bind_eq_ok] at hx
      obtain ⟨r, hr, hx⟩ := hx
      have := ih r inner hr (by simpa using hl)
      rw [List.zipWith_cons_cons, ← this]
      exact (Res.ok.inj hx).symm

example : serCol cfgRelease (.nullable .uint16) [.uint16 258, .null] = .ok [0, 1, 2, 1, 0, 0] := rfl

/-! ## C12 validated values serialise -/

/-- C12 is false of the code: a tuple with too many members passes validation and panics the writer. -/
theorem C12_false_long_tuple (cfg : Cfg) :
    Ty.validateValue cfg (.tuple [.uint8]) (.tuple [.uint8 1, .uint8 2]) = true ∧
    serCol cfg (.tuple [.uint8]) [.tuple [.uint8 1, .uint8 2]] = .panic := ⟨rfl, rfl⟩

/-- C12 is false of the code: a tuple with too few members passes validation and is written as a
column that is too short. -/
theorem C12_false_short_tuple (cfg : Cfg) :
    Ty.validateValue cfg (.tuple [.uint8, .uint8]) (.tuple [.uint8 1]) = true ∧
    serCol cfg (.tuple [.uint8, .uint8]) [.tuple [.uint8 1]] = .ok [1] ∧
    deCol cfg (.tuple [.uint8, .uint8]) 1 [1] = .err .io := ⟨rfl, rfl, rfl⟩

/-- C12 is false of the code: a map with more keys than values passes validation and panics. -/
theorem C12_false_ragged_map (cfg : Cfg) :
    Ty.validateValue cfg (.map .uint8 .uint8) (.map [.uint8 1] []) = true ∧
    serCol cfg (.map .uint8 .uint8) [.map [.uint8 1] []] = .panic := ⟨rfl, rfl⟩

/-- C12 is false of the code: NULL passes validation for a nullable point and panics. -/
theorem C12_false_null_point (cfg : Cfg) :
    Ty.validateValue cfg (.nullable .point) .null = true ∧
    serCol cfg (.nullable .point) [.null] = .panic := ⟨rfl, rfl⟩

theorem C12_validated_serialises_false : ¬ ∀ (cfg : Cfg) (t : Ty) (v : Value),
    Ty.validateValue cfg t v = true → serCol cfg t [v] ≠ .panic :=
  fun h => h cfgDebug _ _ (C12_false_long_tuple cfgDebug).1 (C12_false_long_tuple cfgDebug).2

/-- C12 under the conditions that validation fails to check (`Regular`: tuple and map lengths, no
NULL for a geometric type, string length limit) and within the protocol's size limit: validated
values are written, and what is written is a complete column. Missing: the full statement without
`Regular`, which is false. -/
theorem C12_validated_serialises_partial (cfg : Cfg) (t : Ty) (vs : List Value)
    (hb : ¬ unsupported cfg t = true) (ht : t.validate = true)
    (hv : ∀ v ∈ vs, Ty.validateValue cfg t v = true) (hr : ∀ v ∈ vs, Regular t v) (hf : Fits t vs) :
    ∃ b, serCol cfg t vs = .ok b ∧ ∀ rest,
      deCol cfg t vs.length (b ++ rest) = .ok (vs.map (canon t), rest) :=
  col_rt cfg t (wf_of_validate t ht hb) vs (fun v h => storable_of_valid t v (by
    have := hv v h; simp only [Ty.validateValue, Bool.and_eq_true] at this; exact this.2) (hr v h)) hf

mutual
theorem valid_of_storable {cfg : Cfg} : ∀ (t : Ty) (v : Value), WellFormed cfg t → Storable cfg t v → EnumsDeclared t v → t.innerValidate cfg v = true
  | .array t, v, hw, hv, he => by
    obtain ⟨xs, rfl, hv⟩ := hv
    show xs.all _ = true
    rw [List.all_eq_true]
    exact fun x hx => valid_of_storable t x (by cases hw; assumption) (hv x hx) (he x hx)
  | .lowCardinality t, v, hw, hv, he => valid_of_storable t v (by
      cases hw with
      | lowCardinality _ h => exact h
      | lowCardinalityNullable ha h =>
        refine .nullable ?_ h
        rename_i t
        cases t <;> first | rfl | cases ha) hv he
  | .nullable t, v, hw, hv, he => by
    show (v.isNull || t.innerValidate cfg v) = true
    rcases hv with ⟨rfl, _⟩ | hv
    · rfl
    · rw [valid_of_storable t v (by cases hw; assumption) hv he, Bool.or_true]
  | .map k t, v, hw, hv, he => by
    obtain ⟨ks, vs, rfl, _, h1, h2⟩ := hv
    show (ks.all _ && vs.all _) = true
    rw [Bool.and_eq_true, List.all_eq_true, List.all_eq_true]
    exact ⟨fun x hx => valid_of_storable k x (by cases hw; assumption) (h1 x hx) (he.1 x hx),
      fun x hx => valid_of_storable t x (by cases hw; assumption) (h2 x hx) (he.2 x hx)⟩
  | .tuple ts, v, hw, hv, he => by
    obtain ⟨xs, rfl, hv⟩ := hv
    exact validAll_of_storable ts xs (by cases hw; assumption) hv he
  | .enum8 items, v, hw, hv, he => by
    obtain ⟨i, rfl⟩ := hv
    obtain ⟨n, hn⟩ := he i rfl
    show items.any _ = true
    rw [List.any_eq_true]
    exact ⟨_, hn, beq_self_eq_true i⟩
  | .enum16 items, v, hw, hv, he => by
    obtain ⟨i, rfl⟩ := hv
    obtain ⟨n, hn⟩ := he i rfl
    show items.any _ = true
    rw [List.any_eq_true]
    exact ⟨_, hn, beq_self_eq_true i⟩
  | .string, v, hw, hv, he => by
    rcases hv with ⟨b, rfl, _⟩ | ⟨xs, rfl, _, h⟩
    · rfl
    · exact List.all_eq_true.mpr fun x hx => (isByte_iff x).mpr (h x hx)
  | .fixedString n, v, hw, hv, he => by
    rcases hv with ⟨b, rfl⟩ | ⟨xs, rfl, h⟩
    · rfl
    · exact List.all_eq_true.mpr fun x hx => (isByte_iff x).mpr (h x hx)
  | .int8, v, hw, hv, he => by rcases hv with ⟨x, rfl⟩ | ⟨x, rfl⟩ <;> rfl
  | .bfloat16, v, hw, hv, he => by
    obtain ⟨x, rfl⟩ := hv
    cases hw with | bfloat16 h => exact h
  | .decimal32 _, v, hw, hv, he | .decimal64 _, v, hw, hv, he | .decimal128 _, v, hw, hv, he | .decimal256 _, v, hw, hv, he | .dateTime _, v, hw, hv, he => by
    obtain ⟨x, rfl⟩ := hv; exact beq_self_eq_true _
  | .dateTime64 _ _, v, hw, hv, he => by
    obtain ⟨x, rfl⟩ := hv
    exact (Bool.and_eq_true _ _).mpr ⟨beq_self_eq_true _, beq_self_eq_true _⟩
  | .int16, v, hw, hv, he | .int32, v, hw, hv, he | .int64, v, hw, hv, he | .int128, v, hw, hv, he | .int256, v, hw, hv, he
  | .uint8, v, hw, hv, he | .uint16, v, hw, hv, he | .uint32, v, hw, hv, he | .uint64, v, hw, hv, he | .uint128, v, hw, hv, he | .uint256, v, hw, hv, he
  | .float32, v, hw, hv, he | .float64, v, hw, hv, he | .uuid, v, hw, hv, he | .date, v, hw, hv, he | .ipv4, v, hw, hv, he | .ipv6, v, hw, hv, he
  | .point, v, hw, hv, he | .ring, v, hw, hv, he | .polygon, v, hw, hv, he | .multiPolygon, v, hw, hv, he => by
    obtain ⟨x, rfl⟩ := hv; rfl
theorem validAll_of_storable {cfg : Cfg} : ∀ (ts : List Ty) (vs : List Value), (∀ t ∈ ts, WellFormed cfg t) → StorableAll cfg ts vs → EnumsDeclaredAll ts vs →
    Ty.innerValidateZip cfg ts vs = true
  | [], _, _, _, _ => rfl
  | t :: ts, vs, hw, hv, he => by
    obtain ⟨x, xs, rfl, h1, h2⟩ := hv
    show (t.innerValidate cfg x && Ty.innerValidateZip cfg ts xs) = true
    rw [valid_of_storable t x (hw t (List.mem_cons_self ..)) h1 he.1,
      validAll_of_storable ts xs (fun t h => hw t (List.mem_cons_of_mem _ h)) h2 he.2]
    rfl
end

/-- C12, the converse: validation refuses nothing the column can hold, except numbers of an enum that its type does not declare. -/
theorem C12_storable_accepted (cfg : Cfg) (t : Ty) (v : Value) (ht : t.validate = true) (hw : WellFormed cfg t) (hv : Storable cfg t v)
    (he : EnumsDeclared t v) : Ty.validateValue cfg t v = true := by
  unfold Ty.validateValue
  rw [ht, valid_of_storable t v hw hv he]
  rfl

/-- A case: bytes of either sign as an array for a text, and a declared value of an enum. -/
example (cfg : Cfg) : Ty.validateValue cfg (.tuple [.string, .enum8 [(['o', 'n'], 1#8)]]) (.tuple [.array [.uint8 65#8, .int8 66#8], .enum8 1#8]) = true :=
  C12_storable_accepted cfg _ _ rfl
    (.tuple (by
      intro t h
      rcases List.mem_cons.mp h with rfl | h
      · exact .string
      · obtain rfl := List.mem_singleton.mp h
        constructor))
    ⟨_, rfl, _, _, rfl, .inr ⟨_, rfl, (by decide), (by
      intro x h
      rcases List.mem_cons.mp h with rfl | h
      · exact .inl ⟨_, rfl⟩
      · obtain rfl := List.mem_singleton.mp h
        exact .inr ⟨_, rfl⟩)⟩, _, _, rfl, ⟨_, rfl⟩, rfl⟩
    ⟨trivial, fun i e => (by cases e; exact ⟨_, List.mem_singleton.mpr rfl⟩), trivial⟩

example := C12_validated_serialises_partial cfgRelease exTy exVals (by decide) rfl
  (by simp [exVals, exTy, Ty.validateValue, Ty.validate, Ty.validates, Ty.nullableRefused,
    Ty.lcAllowed, Ty.stripNull, Ty.innerValidate, Ty.innerValidateZip, Value.isNull])
  (by simp [exVals, exTy, Regular, RegularAll, elems, members, isGeo]) exVals_fits

/-! ## C13 injectivity -/

/-- C13: if two columns of one type with equally many rows are written and the streams they start
agree, then the columns hold the same values (in normal form) and the same bytes follow: no encoding
is a proper prefix of another, and different columns never coincide. -/
theorem C13_column_injective (cfg : Cfg) (t : Ty) (ht : WellFormed cfg t) (vs ws : List Value)
    (hl : vs.length = ws.length)
    (hv : ∀ v ∈ vs, Storable cfg t v) (hw : ∀ v ∈ ws, Storable cfg t v)
    (fv : Fits t vs) (fw : Fits t ws) (b c r r' : Bytes)
    (sb : serCol cfg t vs = .ok b) (sc : serCol cfg t ws = .ok c) (he : b ++ r = c ++ r') :
    vs.map (canon t) = ws.map (canon t) ∧ r = r' ∧ b = c := by
  obtain ⟨b', b1, b2⟩ := col_rt cfg t ht vs hv fv
  obtain ⟨c', c1, c2⟩ := col_rt cfg t ht ws hw fw
  rw [sb] at b1; rw [sc] at c1
  cases b1; cases c1
  have h1 := b2 r
  rw [he, hl, c2 r'] at h1
  simp only [Res.ok.injEq, Prod.mk.injEq] at h1
  refine ⟨h1.1.symm, h1.2.symm, ?_⟩
  rw [h1.2] at he
  exact List.append_cancel_right he

example : ∃ b, serCol cfgRelease exTy exVals = .ok b :=
  let ⟨b, h, _⟩ := C06_column_roundtrip cfgRelease exTy exTy_wf exVals exVals_storable exVals_fits
  ⟨b, h⟩

end Klick.Props
