import Verif.Spec.Packets
import Verif.Steady
import Verif.BlockLemmas
import Verif.Props.Compress
/-
Lemmas for packets: the protocol's integers and strings, read and written by the client.
-/
namespace Klick
open Spec

theorem readVarUintLoop_varint (fuel : Nat) : ∀ (i out v : Nat) (rest : Bytes), out < 2 ^ (7 * i) →
    v < 2 ^ (7 * fuel) → 0 < fuel →
    readVarUintLoop fuel i out (varint v ++ rest) = .ok (out + v * 2 ^ (7 * i), rest) := by
  induction fuel with
  | zero => intro _ _ _ _ _ _ h; omega
  | succ fuel ih =>
    intro i out v rest ho hv _
    unfold varint
    by_cases h : v < 128
    · rw [if_pos h, List.singleton_append, readVarUintLoop_succ _ _ _ _ _ ho]
      have : (BitVec.ofNat 8 v).toNat = v := by simp; omega
      rw [this, if_pos h, Nat.mod_eq_of_lt h]
    · rw [if_neg h, List.cons_append, readVarUintLoop_succ _ _ _ _ _ ho]
      have e : (BitVec.ofNat 8 (v % 128 + 128)).toNat = v % 128 + 128 := by simp; omega
      rw [e, if_neg (by omega)]
      have e7 : 2 ^ (7 * (i + 1)) = 128 * 2 ^ (7 * i) := by
        rw [show 7 * (i + 1) = 7 * i + 7 by omega, Nat.pow_add]; omega
      have hf : v / 128 < 2 ^ (7 * fuel) := by
        rw [Nat.div_lt_iff_lt_mul (by omega)]
        rw [show 7 * (fuel + 1) = 7 * fuel + 7 by omega, Nat.pow_add] at hv; omega
      have hfp : 0 < fuel := by
        rcases Nat.eq_zero_or_pos fuel with rfl | h'
        · simp at hf; omega
        · exact h'
      rw [ih _ _ _ _ ?_ hf hfp, e7]
      · congr 2
        have hm : (v % 128 + 128) % 128 = v % 128 := by omega
        rw [hm]
        have := Nat.div_add_mod v 128
        generalize 2 ^ (7 * i) = p
        rw [Nat.mul_comm 128 p, ← Nat.mul_assoc, Nat.mul_comm (v / 128) p, Nat.mul_assoc, Nat.mul_comm (v % 128) p,
          Nat.add_assoc, ← Nat.mul_add, Nat.mul_comm v p]
        congr 2
        omega
      · rw [e7]
        have : (v % 128 + 128) % 128 < 128 := by omega
        generalize (v % 128 + 128) % 128 = q at this ⊢
        have : q * 2 ^ (7 * i) ≤ 127 * 2 ^ (7 * i) := Nat.mul_le_mul_right _ (by omega)
        omega

theorem readVarUint_varint (v : Nat) (hv : v < 2 ^ 63) (rest : Bytes) :
    readVarUint (varint v ++ rest) = .ok (v, rest) := by
  have := readVarUintLoop_varint 9 0 0 v rest (by decide) hv (by decide)
  simpa [readVarUint] using this

theorem readString_str (b rest : Bytes) (h : b.length ≤ 2 ^ 30) : readString (str b ++ rest) = .ok (b, rest) := by
  unfold readString str
  rw [List.append_assoc, Rd.bind_run_ok (readVarUint_varint _ (by omega) _)]
  have hm : ¬ b.length > maxStringSize := by unfold maxStringSize; omega
  rw [if_neg hm]
  by_cases h0 : b.length = 0
  · rw [if_pos h0]
    have : b = [] := List.length_eq_zero_iff.mp h0
    subst this; rfl
  · rw [if_neg h0]
    exact readExact_append b rest rfl

theorem readUtf8String_text (t : Str) (rest : Bytes) (h : TextFits t) :
    readUtf8String (text t ++ rest) = .ok (t, rest) := by
  unfold readUtf8String text
  rw [Rd.bind_run_ok (readString_str _ _ h), utf8Decode_encode]
  rfl

theorem readU8_flag (b : Bool) (rest : Bytes) :
    readU8 (flag b ++ rest) = .ok (if b then 1#8 else 0#8, rest) := rfl

theorem flag_ne (b : Bool) : ((if b then 1#8 else 0#8 : Byte) != 0#8) = b := by cases b <;> rfl

/-! ### what the client writes, read by the protocol -/

theorem takeVarint_loop (fuel : Nat) : ∀ (v : Nat) (rest : Bytes), v < 2 ^ (7 * fuel) → 0 < fuel →
    takeVarint (writeVarUintLoop fuel v ++ rest) = some (v, rest) := by
  induction fuel with
  | zero => intro _ _ _ h; omega
  | succ fuel ih =>
    intro v rest hv _
    rw [writeVarUintLoop_succ]
    by_cases h : v < 128
    · rw [if_neg (by omega), if_pos (by omega), Nat.mod_eq_of_lt h, List.singleton_append]
      have : (BitVec.ofNat 8 (v + 0)).toNat = v := by simp; omega
      simp only [takeVarint, this]
      rw [if_pos h]
    · have hf : v / 128 < 2 ^ (7 * fuel) := by
        rw [Nat.div_lt_iff_lt_mul (by omega)]
        rw [show 7 * (fuel + 1) = 7 * fuel + 7 by omega, Nat.pow_add] at hv; omega
      have hfp : 0 < fuel := by
        rcases Nat.eq_zero_or_pos fuel with rfl | h'
        · simp at hf; omega
        · exact h'
      have e : (BitVec.ofNat 8 (v % 128 + 128)).toNat = v % 128 + 128 := by simp; omega
      rw [if_pos (by omega), if_neg (by omega), List.cons_append]
      simp only [takeVarint, ih _ rest hf hfp, e]
      rw [if_neg (by omega)]
      simp only [Option.map_some]
      congr 2
      omega

theorem takeVarint_write (v : Nat) (hv : v < 2 ^ 63) (rest : Bytes) :
    takeVarint (writeVarUint v ++ rest) = some (v, rest) :=
  takeVarint_loop 9 v rest hv (by decide)

theorem takeStr_write (b rest : Bytes) (h : b.length < 2 ^ 63) :
    takeStr (writeString b ++ rest) = some (b, rest) := by
  unfold takeStr writeString
  rw [List.append_assoc, takeVarint_write _ h]
  simp

/-! ### compressed payloads -/

theorem Spec.Frames.length_le {lz : Lz4} {s rest : Bytes} {ds : List Bytes} (h : Frames lz s ds rest) : ds.length ≤ s.length := by
  induction h with
  | nil => simp
  | cons h _ ih =>
    obtain ⟨body, n, _, _, rfl, _⟩ := h
    simp [checksummed]
    omega

theorem framedLoop_read {α : Type} {lz : Lz4} {x : Rd α} (hx : Steady x) {bytes : Bytes} {a : α}
    (h : x bytes = .ok (a, [])) {s rest : Bytes} {ds : List Bytes} (hf : Frames lz s ds rest) :
    ∀ (fuel : Nat) (acc : Bytes), ds.length < fuel → acc ++ ds.flatten = bytes → (∀ d ∈ ds, d ≠ []) →
      framedLoop lz x fuel acc s = .ok (a, rest) := by
  induction hf with
  | nil s =>
    intro fuel acc hfuel hb _
    simp only [List.flatten_nil, List.append_nil] at hb
    subst hb
    cases fuel with
    | zero => omega
    | succ fuel => simp only [framedLoop, h]
  | @cons f d s ds rest hfr _ ih =>
    intro fuel acc hfuel hb hne
    cases fuel with
    | zero => omega
    | succ fuel =>
      have hd : d ≠ [] := hne d (by simp)
      have := hx.truncated h hb.symm (by simp [hd])
      simp only [framedLoop, this, readFrame_of_isFrame hfr]
      exact ih fuel (acc ++ d) (by simp at hfuel; omega) (by simpa using hb) (fun d h => hne d (by simp [h]))

theorem framed_read {α : Type} {lz : Lz4} {x : Rd α} (hx : Steady x) {bytes : Bytes} {a : α}
    (h : x bytes = .ok (a, [])) {s rest : Bytes} {ds : List Bytes} (hf : Frames lz s ds rest)
    (hb : ds.flatten = bytes) (hne : ∀ d ∈ ds, d ≠ []) : framed lz x s = .ok (a, rest) :=
  framedLoop_read hx h hf _ [] (by have := hf.length_le; omega) (by simpa using hb) hne

theorem Spec.Steady.exact {α : Type} {x : Rd α} (hx : Steady x) {bytes : Bytes} {a : α}
    (h : x bytes = .ok (a, [])) (rest : Bytes) : x (bytes ++ rest) = .ok (a, rest) := by
  rcases hx bytes rest with h1 | h1
  · rw [h] at h1; cases h1
  · rw [h1, h]; rfl

/-! ### packets do not depend on what follows -/

theorem Spec.Steady.framedLoop {α : Type} (lz : Lz4) (x : Rd α) (fuel : Nat) : ∀ acc, Steady (framedLoop lz x fuel acc) := by
  induction fuel with
  | zero => intro _; exact Steady.fail _
  | succ fuel ih =>
    intro acc s t
    cases hx : x acc with
    | ok r => simp only [Klick.framedLoop, hx]; exact .inr rfl
    | panic => simp only [Klick.framedLoop, hx]; exact .inr rfl
    | err e =>
      by_cases he : e = .io
      · subst he
        cases hr : Klick.readFrame lz lz4Byte s with
        | err e => left; simp only [Klick.framedLoop, hx, hr]
        | panic =>
          rcases Steady.readFrame lz lz4Byte s t with h | h
          · rw [hr] at h; cases h
          · right; rw [hr] at h; simp only [Klick.framedLoop, hx, hr, h, extend]
        | ok r =>
          obtain ⟨d, s'⟩ := r
          rcases Steady.readFrame lz lz4Byte s t with h | h
          · rw [hr] at h; cases h
          · rw [hr] at h
            simp only [Klick.framedLoop, hx, hr, h, extend]
            exact ih _ s' t
      · right
        have e1 : ∀ u, Klick.framedLoop lz x (fuel + 1) acc u = .err e := by
          intro u
          simp only [Klick.framedLoop, hx]
        rw [e1, e1]; rfl

theorem framedLoop_fuel {α : Type} (lz : Lz4) (x : Rd α) (k : Nat) : ∀ (fuel : Nat) (acc s : Bytes),
    framedLoop lz x fuel acc s ≠ .err .io → framedLoop lz x (fuel + k) acc s = framedLoop lz x fuel acc s := by
  intro fuel
  induction fuel with
  | zero => intro _ _ h; exact absurd rfl h
  | succ fuel ih =>
    intro acc s h
    rw [show fuel + 1 + k = (fuel + k) + 1 by omega]
    cases hx : x acc with
    | ok r => simp only [framedLoop, hx]
    | panic => simp only [framedLoop, hx]
    | err e =>
      by_cases he : e = .io
      · subst he
        cases hr : readFrame lz lz4Byte s with
        | err e => simp only [framedLoop, hx, hr]
        | panic => simp only [framedLoop, hx, hr]
        | ok r =>
          obtain ⟨d, s'⟩ := r
          simp only [framedLoop, hx, hr] at h ⊢
          exact ih _ _ h
      · have e1 : ∀ f u, framedLoop lz x (f + 1) acc u = .err e := by
          intro f u
          simp only [framedLoop, hx]
        rw [e1, e1]

theorem Spec.Steady.framed {α : Type} (lz : Lz4) (x : Rd α) : Steady (framed lz x) :=
  Steady.fueled (f := fun n => Klick.framedLoop lz x n []) (fun n => Steady.framedLoop lz x n _)
    (fun n k s hs => framedLoop_fuel lz x k n [] s hs)

theorem Spec.Steady.readIf {α : Type} {c : Bool} {x : Rd α} (h : Steady x) : Steady (readIf c x) :=
  ite (bind h fun _ => pure _) (pure _)

theorem Spec.Steady.readDataBlock (cfg : Cfg) (comp : Option Lz4) (revision : Nat) :
    Steady (readDataBlock cfg comp revision) := by
  cases comp with
  | none => exact Steady.readBlock cfg revision
  | some lz => exact Steady.framed lz _

theorem Spec.Steady.readData (cfg : Cfg) (comp : Option Lz4) (revision : Nat) :
    Steady (readData cfg comp revision) :=
  bind readUtf8String fun _ => bind (Steady.readDataBlock cfg comp revision) fun _ => pure _

theorem Spec.Steady.readStatuses (n : Nat) : ∀ m, Steady (readStatuses n m) := by
  induction n with
  | zero => intro _; exact pure _
  | succ n ih =>
    intro m
    exact bind readUtf8String fun _ => bind readUtf8String fun _ => bind readU8 fun _ =>
      bind (ite (bind readVarUint fun _ => pure _) (pure _)) fun _ => ih _

theorem Spec.Steady.readBody (cfg : Cfg) (comp : Option Lz4) (revision id : Nat) :
    Steady (readBody cfg comp revision id) := by
  unfold Klick.readBody
  split
  · exact bind (bind readUtf8String fun _ => bind readVarUint fun _ => bind readVarUint fun _ =>
      bind readVarUint fun _ => bind (readIf readUtf8String) fun _ => bind (readIf readUtf8String) fun _ =>
      bind (readIf readVarUint) fun _ => pure _) fun _ => pure _
  · exact bind (Steady.readData cfg comp revision) fun _ => pure _
  · exact bind (bind (readLe _ _) fun _ => bind readUtf8String fun _ => bind readUtf8String fun _ =>
      bind readUtf8String fun _ => bind readU8 fun _ => pure _) fun _ => pure _
  · exact bind (bind readVarUint fun _ => bind readVarUint fun _ => bind readVarUint fun _ =>
      bind (readIf readVarUint) fun _ => bind (readIf readVarUint) fun _ => pure _) fun _ => pure _
  · exact pure _
  · exact pure _
  · exact bind (bind readVarUint fun _ => bind readVarUint fun _ => bind readVarUint fun _ =>
      bind readU8 fun _ => bind readVarUint fun _ => bind readU8 fun _ => pure _) fun _ => pure _
  · exact bind (Steady.readData cfg comp revision) fun _ => pure _
  · exact bind (Steady.readData cfg comp revision) fun _ => pure _
  · exact bind readVarUint fun _ => ite (fail _) (bind (Steady.readStatuses _ _) fun _ => pure _)
  · exact panic
  · exact bind readUtf8String fun _ => bind readUtf8String fun _ => pure _
  · exact bind readVarUint fun _ => ite (fail _) (bind (rep (bind (readExact _) fun _ => pure _) _) fun _ => pure _)
  · exact pure _
  · exact fail _

theorem Spec.Steady.readPacket (cfg : Cfg) (comp : Option Lz4) (revision : Nat) :
    Steady (readPacket cfg comp revision) := bind readVarUint fun _ => Steady.readBody cfg comp revision _

/-! ### table statuses -/

theorem IMap.get_insert {α : Type} (m : IMap α) (k k' : Str) (v : α) :
    (m.insert k v).get k' = if k = k' then some v else m.get k' := by
  unfold IMap.insert
  by_cases h : m.any (fun e => e.1 == k)
  · rw [if_pos h]
    have : ∃ v', (k, v') ∈ m := by
      simp only [List.any_eq_true] at h
      obtain ⟨⟨a, b⟩, h1, h2⟩ := h
      have : a = k := by simpa using h2
      exact ⟨b, this ▸ h1⟩
    clear h
    obtain ⟨v', h⟩ := this
    induction m generalizing v' with
    | nil => simp at h
    | cons e m ih =>
      obtain ⟨a, b⟩ := e
      rw [List.map_cons, IMap.get_cons]
      by_cases ha : a = k
      · subst ha
        simp only [beq_self_eq_true, if_true]
        rw [IMap.get_cons]
        by_cases hk : a = k'
        · simp [hk]
        · simp only [if_neg hk]
          by_cases hm : ∃ v', (a, v') ∈ m
          · obtain ⟨v'', hm⟩ := hm
            exact (ih v'' hm).trans (by rw [if_neg hk])
          · rw [show m.map (fun e => if e.1 == a then (a, v) else e) = m from ?_]
            have : ∀ e ∈ m, (fun e : Str × α => if e.1 == a then (a, v) else e) e = e := by
              intro e he
              have : e.1 ≠ a := fun e1 => hm ⟨e.2, e1 ▸ he⟩
              simp [this]
            rw [List.map_congr_left this, List.map_id']
      · have : (a == k) = false := by simpa using ha
        simp only [this]
        have hm : (k, v') ∈ m := by
          rcases List.mem_cons.mp h with h | h
          · cases h; exact absurd rfl ha
          · exact h
        simp only [Bool.false_eq_true, if_false]
        rw [IMap.get_cons, ih v' hm]
        by_cases hk : a = k'
        · subst hk
          simp only [if_true]
          rw [if_neg (fun e => ha e.symm)]
        · simp only [if_neg hk]
  · rw [if_neg h]
    have hk : k ∉ m.keys := by
      intro hk
      apply h
      simp only [IMap.keys, List.mem_map] at hk
      obtain ⟨e, h1, h2⟩ := hk
      exact List.any_eq_true.mpr ⟨e, h1, by simpa using h2⟩
    clear h
    induction m with
    | nil => simp [IMap.get_cons]
    | cons e m ih =>
      obtain ⟨a, b⟩ := e
      simp only [IMap.keys, List.map_cons, List.mem_cons, not_or] at hk
      rw [List.cons_append, IMap.get_cons, IMap.get_cons, ih hk.2]
      by_cases h1 : a = k'
      · subst h1
        rw [if_pos rfl, if_neg hk.1, if_pos rfl]
      · simp only [if_neg h1]

/-- Look a table up in a table status response. -/
def statusIn (m : IMap (IMap TableStatus)) (db table : Str) : Option TableStatus :=
  (m.get db).bind (fun d => d.get table)

theorem statusIn_insert (m : IMap (IMap TableStatus)) (db table db' table' : Str) (st : TableStatus) :
    statusIn (insertStatus m db table st) db' table' =
      if db = db' ∧ table = table' then some st else statusIn m db' table' := by
  unfold statusIn insertStatus
  rw [IMap.get_insert]
  by_cases h1 : db = db'
  · subst h1
    rw [if_pos rfl, Option.bind_some, IMap.get_insert]
    by_cases h2 : table = table'
    · simp [h2]
    · simp only [h2, if_false, and_false]
      cases IMap.get m db <;> simp [IMap.get]
  · rw [if_neg h1, if_neg (fun h => h1 h.1)]

theorem readStatuses_line (l : StatusLine) (hok : l.Ok) (n : Nat) (m : IMap (IMap TableStatus)) (r : Bytes) :
    readStatuses (n + 1) m (l.bytes ++ r) = readStatuses n (insertStatus m l.db l.table l.status) r := by
  obtain ⟨h1, h2, h3⟩ := hok
  unfold StatusLine.bytes
  simp only [List.append_assoc, readStatuses]
  rw [Rd.bind_run_ok (readUtf8String_text _ _ h1), Rd.bind_run_ok (readUtf8String_text _ _ h2)]
  cases hd : l.delay with
  | none =>
    have e : l.status = ⟨false, 0⟩ := by simp [StatusLine.status, hd]
    rw [e]
    exact (Rd.bind_run_ok (readU8_flag false _)).trans (Rd.bind_run_ok (x := readDelay false) (a := 0) (s' := r) rfl)
  | some d =>
    have e : l.status = ⟨true, BitVec.ofNat 32 d⟩ := by simp [StatusLine.status, hd]
    have hlt : d < 2 ^ 63 := by have := h3 d (by simp [hd]); omega
    have e2 : readDelay true (varint d ++ r) = .ok (BitVec.ofNat 32 d, r) := by
      unfold readDelay
      rw [if_pos rfl, Rd.bind_run_ok (readVarUint_varint d hlt r)]; rfl
    rw [e]
    simp only [List.append_assoc]
    exact (Rd.bind_run_ok (readU8_flag true _)).trans (Rd.bind_run_ok e2)

theorem readStatuses_lines (ls : List StatusLine) (hok : ∀ l ∈ ls, l.Ok) : ∀ (m : IMap (IMap TableStatus)) (rest : Bytes),
    ∃ m', readStatuses ls.length m (ls.flatMap StatusLine.bytes ++ rest) = .ok (m', rest) ∧
      ∀ db table, statusIn m' db table = (statusOf ls db table).or (statusIn m db table) := by
  induction ls with
  | nil => intro m rest; exact ⟨m, rfl, fun _ _ => rfl⟩
  | cons l ls ih =>
    intro m rest
    obtain ⟨m', g1, g2⟩ := ih (fun l h => hok l (by simp [h])) (insertStatus m l.db l.table l.status) rest
    refine ⟨m', ?_, ?_⟩
    · rw [List.length_cons, List.flatMap_cons, List.append_assoc, readStatuses_line l (hok l (by simp))]
      exact g1
    · intro db table
      rw [g2, statusIn_insert]
      unfold statusOf
      simp only [List.reverse_cons, List.find?_append]
      cases List.find? (fun l => l.db == db && l.table == table) ls.reverse with
      | some l' => simp
      | none =>
        simp only [Option.none_or, Option.map_none, List.find?_cons, List.find?_nil]
        by_cases h : l.db = db ∧ l.table = table
        · simp [h]
        · rw [if_neg h]
          have : (l.db == db && l.table == table) = false := by
            rw [Bool.eq_false_iff]
            intro hc
            simp only [Bool.and_eq_true, beq_iff_eq] at hc
            exact h hc
          simp [this]

end Klick
