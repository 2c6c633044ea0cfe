import Verif.Codec
import Verif.TypeText
/-
Blocks: klickhouse/src/block.rs.
-/
namespace Klick

/-! ### `IndexMap` (external crate `indexmap`): an insertion-ordered map, as an association list -/

/-- `IndexMap<String, α>`: entries in order; keys are distinct in every map the code builds, klickhouse/src/block.rs:67-76. -/
abbrev IMap (α : Type) := List (Str × α)

namespace IMap
variable {α : Type}

/-- `IndexMap::get`, klickhouse/src/block.rs:217-224. -/
def get (m : IMap α) (k : Str) : Option α := (m.find? (fun e => e.1 == k)).map (·.2)

/-- `IndexMap::insert`: replaces the value of an existing key in place, else appends, klickhouse/src/block.rs:193-208. -/
def insert (m : IMap α) (k : Str) (v : α) : IMap α :=
  if m.any (fun e => e.1 == k) then m.map (fun e => if e.1 == k then (k, v) else e) else m ++ [(k, v)]

/-- The entries after removing position `i` the `swap_remove` way: the last entry takes its place, klickhouse/src/block.rs:217-224. -/
def swapRest (m : IMap α) (i : Nat) : IMap α :=
  if i + 1 = m.length then m.dropLast
  else match m.getLast? with
    | some e => (m.dropLast).set i e
    | none => m

/-- `IndexMap::swap_remove`: removes an entry, moving the last entry into its place, klickhouse/src/block.rs:217-224. -/
def swapRemove (m : IMap α) (k : Str) : Option α × IMap α :=
  match m.findIdx? (fun e => e.1 == k) with
  | none => (none, m)
  | some i => (m.get k, m.swapRest i)

/-- The keys in order, klickhouse/src/block.rs:67-76. -/
def keys (m : IMap α) : List Str := m.map (·.1)

end IMap

/-- `BlockInfo`, klickhouse/src/block.rs:16-19. -/
structure BlockInfo where
  isOverflows : Bool
  bucketNum : BitVec 32
deriving DecidableEq, Repr

/-- `BlockInfo::default`, klickhouse/src/block.rs:21-28 (`bucket_num: -1`). -/
def BlockInfo.default : BlockInfo := ⟨false, BitVec.ofInt 32 (-1)⟩

/-- `Block`, klickhouse/src/block.rs:67-76. -/
structure Block where
  info : BlockInfo
  rows : Nat
  columnTypes : IMap Ty
  columnData : IMap (List Value)
deriving Repr

/-- The loop of `BlockInfo::read`, klickhouse/src/block.rs:31-51. The code's loop is unbounded; each
turn consumes at least one byte, so `fuel` beyond the number of bytes left is never exhausted. -/
def readInfoLoop : Nat → BlockInfo → Rd BlockInfo
  | 0, _ => Rd.fail .io
  | fuel + 1, i => readVarUint >>= fun f =>
    if f = 0 then pure i
    else if f = 1 then readU8 >>= fun b => readInfoLoop fuel { i with isOverflows := b != 0#8 }
    else if f = 2 then readLe 4 32 >>= fun n => readInfoLoop fuel { i with bucketNum := n }
    else Rd.fail .protocol

/-- `BlockInfo::read`, klickhouse/src/block.rs:31-51. -/
def readInfo : Rd BlockInfo := fun s => readInfoLoop (s.length + 1) BlockInfo.default s

/-- `BlockInfo::write`, klickhouse/src/block.rs:53-62. -/
def BlockInfo.write (i : BlockInfo) : Bytes :=
  writeVarUint 1 ++ [if i.isOverflows then 1#8 else 2#8] ++ writeVarUint 2 ++
    le 4 i.bucketNum.toNat ++ writeVarUint 0

/-- One turn of the loop of `Block::read`, klickhouse/src/block.rs:193-208. -/
def readColumn (cfg : Cfg) (rows : Nat) (b : Block) : Rd Block := do
  let name ← readUtf8String
  let typeName ← readUtf8String
  let t ← Rd.lift (Ty.parse cfg typeName)
  let data ← if rows > 0 then (dePrefix t >>= fun _ => deCol cfg t rows) else pure []
  pure { b with columnTypes := b.columnTypes.insert name t, columnData := b.columnData.insert name data }

/-- The loop of `Block::read`, klickhouse/src/block.rs:193-208. -/
def readColumns (cfg : Cfg) (rows : Nat) : Nat → Block → Rd Block
  | 0, b => pure b
  | n + 1, b => readColumn cfg rows b >>= fun b => readColumns cfg rows n b

/-- The header information of a block, klickhouse/src/block.rs:180-184: present only when the
revision is positive. -/
def readInfoAt (revision : Nat) : Rd BlockInfo :=
  if revision > 0 then readInfo else pure BlockInfo.default

/-- `Block::read`, klickhouse/src/block.rs:179-211. -/
def readBlock (cfg : Cfg) (revision : Nat) : Rd Block := do
  let info ← readInfoAt revision
  let columns ← readVarUint
  let rows ← readVarUint
  readColumns cfg rows columns ⟨info, rows, [], []⟩

/-- What a fallible writer did: the bytes put on the wire, then its outcome. When a column's own
serialisation fails, the bytes it had already emitted are left out of the model, klickhouse/src/block.rs:213-244. -/
abbrev Wr := Bytes × Res Unit

/-- The `flat_map` of klickhouse/src/block.rs:217-224: the columns that have both a type and data,
in the order of the types. -/
def joinColumns : IMap Ty → IMap (List Value) → List (Str × Ty × List Value)
  | [], _ => []
  | (k, t) :: ts, data =>
    match data.swapRemove k with
    | (some vs, data) => (k, t, vs) :: joinColumns ts data
    | (none, data) => joinColumns ts data

/-- The loop of `Block::write`, klickhouse/src/block.rs:227-242. -/
def writeColumns (cfg : Cfg) (rows : Nat) : List (Str × Ty × List Value) → Wr
  | [] => ([], .ok ())
  | (name, t, data) :: cols =>
    let head := writeString (utf8Encode name) ++ writeString (utf8Encode t.display)
    if data.length ≠ rows then (head, .err .protocol)
    else if rows > 0 then
      match serCol cfg t data with
      | .ok body =>
        let r := writeColumns cfg rows cols
        (head ++ serPrefix t ++ body ++ r.1, r.2)
      | .err e => (head ++ serPrefix t, .err e)
      | .panic => (head ++ serPrefix t, .panic)
    else
      let r := writeColumns cfg rows cols
      (head ++ r.1, r.2)

/-- `Block::write`, klickhouse/src/block.rs:213-244. -/
def Block.write (cfg : Cfg) (b : Block) (revision : Nat) : Wr :=
  let joined := joinColumns b.columnTypes b.columnData
  let r := writeColumns cfg b.rows joined
  ((if revision > 0 then b.info.write else []) ++ writeVarUint joined.length ++ writeVarUint b.rows ++ r.1,
    r.2)

/-! ### row iterators -/

/-- `BlockRowIter::next`, klickhouse/src/block.rs:87-97. -/
def refNext (b : Block) (row : Nat) : Option (List (Str × Value) × Nat) :=
  if row ≥ b.rows then none
  else (b.columnData.mapM (fun e => (e.2[row]?).map (fun v => (e.1, v)))).map (fun out => (out, row + 1))

/-- Collecting `Block::iter_rows`, klickhouse/src/block.rs:142-147, for at most `fuel` rows. -/
def iterRows (b : Block) : Nat → Nat → List (List (Str × Value))
  | 0, _ => []
  | fuel + 1, row =>
    match refNext b row with
    | none => []
    | some (out, row) => out :: iterRows b fuel row

/-- `pop.next()?` / `value.pop_front()?` over the columns, klickhouse/src/block.rs:113-115, 133-135. -/
def popAll {β : Type} : List (Str × β × List Value) → Option (List (Str × β × Value) × List (Str × β × List Value))
  | [] => some ([], [])
  | (_, _, []) :: _ => none
  | (n, t, v :: vs) :: cols => (popAll cols).map (fun (out, rest) => ((n, t, v) :: out, (n, t, vs) :: rest))

/-- `BlockRowValueIter::next` and `BlockRowIntoIter::next`, klickhouse/src/block.rs:108-117, 128-137
(the second collects into an `IndexMap`; names are distinct, so the entries are the same). -/
def popNext {β : Type} (cols : List (Str × β × List Value)) :
    Option (List (Str × β × Value) × List (Str × β × List Value)) :=
  if cols.isEmpty then none else popAll cols

/-- Collecting an owning iterator for at most `fuel` rows, klickhouse/src/block.rs:108-117,128-137. -/
def popRows {β : Type} : Nat → List (Str × β × List Value) → List (List (Str × β × Value))
  | 0, _ => []
  | fuel + 1, cols =>
    match popNext cols with
    | none => []
    | some (out, cols) => out :: popRows fuel cols

/-- Looking up each data column's type, `get(..).unwrap()`, klickhouse/src/block.rs:154-157, 168-174. -/
def typedColumns (f : Ty → Ty) (types : IMap Ty) : IMap (List Value) → Res (List (Str × Ty × List Value))
  | [] => .ok []
  | (n, vs) :: cols =>
    match types.get n with
    | none => .panic
    | some t => typedColumns f types cols >>= fun r => .ok ((n, f t, vs) :: r)

/-- The size of `(&str, &Type, vec::IntoIter<Value>)` on a 64-bit target, klickhouse/src/block.rs:150-177. -/
def columnEntrySize : Nat := 56

/-- Collecting `Block::take_iter_rows`, klickhouse/src/block.rs:150-159. Room for as many columns as the block announces rows is reserved
first (line 153), which panics when that is more than `isize::MAX` bytes. -/
def takeIterRows (b : Block) (fuel : Nat) : Res (List (List (Str × Ty × Value))) :=
  if b.rows * columnEntrySize > maxAlloc then .panic else
  typedColumns Ty.stripLowCardinality b.columnTypes b.columnData >>= fun cols => .ok (popRows fuel cols)

/-- Collecting `Block::into_iter_rows`, klickhouse/src/block.rs:162-177. -/
def intoIterRows (b : Block) (fuel : Nat) : Res (List (List (Str × Ty × Value))) :=
  typedColumns id b.columnTypes b.columnData >>= fun cols => .ok (popRows fuel cols)

end Klick
