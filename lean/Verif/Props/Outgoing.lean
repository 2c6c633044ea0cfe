import Verif.Props.Packets
/-
C41 (client packets), C57 (progress), C62 (truncation).
-/
namespace Klick
open Spec Props

/-! ## C41 -/

/-- What a server of revision `r` should see of a client's information. -/
def Spec.seenInfo (i : ClientInfo) (r : Nat) : Option SeenInfo :=
  if i.kind = 0 then none
  else some
    { kind := BitVec.ofNat 8 i.kind.val, initialUser := i.initialUser, initialQueryId := i.initialQueryId,
      initialAddress := i.initialAddress, interface := 1, osUser := i.osUser, hostname := i.hostname,
      clientName := i.clientName, major := i.major, minor := i.minor, tcpVersion := i.tcpVersion,
      quotaKey := if r ≥ 54060 then some i.quotaKey else none,
      distributedDepth := if r ≥ 54448 then some i.distributedDepth else none,
      patch := if r ≥ 54401 then some i.patch else none,
      traced := if r ≥ 54442 then some 0 else none }

/-- Every string and number of the client information fits the protocol, and there is no trace. -/
structure Spec.InfoFits (i : ClientInfo) : Prop where
  initialUser : i.initialUser.length < 2 ^ 63
  initialQueryId : i.initialQueryId.length < 2 ^ 63
  initialAddress : i.initialAddress.length < 2 ^ 63
  osUser : i.osUser.length < 2 ^ 63
  hostname : i.hostname.length < 2 ^ 63
  clientName : i.clientName.length < 2 ^ 63
  quotaKey : i.quotaKey.length < 2 ^ 63
  major : i.major < 2 ^ 63
  minor : i.minor < 2 ^ 63
  tcpVersion : i.tcpVersion < 2 ^ 63
  distributedDepth : i.distributedDepth < 2 ^ 63
  patch : i.patch < 2 ^ 63
  telemetry : i.telemetry = none

theorem takeIf_write {α : Type} {c : Prop} [Decidable c] {x : Bytes → Option (α × Bytes)} {w : Bytes} {a : α}
    (h : ∀ rest, x (w ++ rest) = some (a, rest)) (rest : Bytes) :
    takeIf (decide c) x ((if c then w else []) ++ rest) = some (if c then some a else none, rest) := by
  unfold takeIf
  by_cases hc : c
  · simp [hc, h]
  · simp [hc]

theorem takeInfo_write (i : ClientInfo) (r : Nat) (h : InfoFits i) (rest : Bytes) :
    takeInfo r (i.write r ++ rest) = some (seenInfo i r, rest) := by
  unfold takeInfo ClientInfo.write seenInfo
  have tb : ∀ b s, takeByte (b :: s) = some (b, s) := fun _ _ => rfl
  simp only [List.cons_append, tb, Option.bind_eq_bind, Option.bind_some]
  by_cases hk : i.kind = 0
  · simp [hk]
  · have hk' : BitVec.ofNat 8 i.kind.val ≠ 0 := by
      have := i.kind.isLt
      intro e
      apply hk
      have e2 := congrArg BitVec.toNat e
      simp at e2
      apply Fin.ext
      show i.kind.val = 0
      omega
    simp only [hk', hk, if_false, List.append_assoc]
    have t1 : ∀ rest, takeByte ([1#8] ++ rest) = some (1, rest) := fun _ => rfl
    have t2 : ∀ rest, takeByte (writeTelemetry i.telemetry ++ rest) = some (0, rest) := by
      rw [h.telemetry]; intro _; rfl
    simp only [t1, takeStr_write _ _ h.initialUser, takeStr_write _ _ h.initialQueryId, takeStr_write _ _ h.initialAddress,
      takeStr_write _ _ h.osUser, takeStr_write _ _ h.hostname, takeStr_write _ _ h.clientName,
      takeVarint_write _ h.major, takeVarint_write _ h.minor, takeVarint_write _ h.tcpVersion, Option.bind_some,
      takeIf_write (fun rest => takeStr_write _ rest h.quotaKey),
      takeIf_write (fun rest => takeVarint_write _ h.distributedDepth rest),
      takeIf_write (fun rest => takeVarint_write _ h.patch rest), takeIf_write t2]
    rfl

/-- C41: a server of the negotiated revision reads the query packet the client wrote into the same
query id, client information, empty settings, empty secret, stage, compression flag and text, and is
left exactly at the following packet. -/
theorem C41_query_packet (q : Query) (r : Nat) (h : InfoFits q.info) (hid : q.id.length < 2 ^ 63)
    (hq : q.query.length < 2 ^ 63) (rest : Bytes) :
    takeQuery r (q.write r ++ rest) =
      some (⟨q.id, if r ≥ 54032 then some (seenInfo q.info r) else none, [],
        if r ≥ 54441 then some [] else none, q.stage.val, if q.compressed then 1 else 0, q.query⟩, rest) := by
  unfold takeQuery Query.write
  simp only [List.append_assoc]
  rw [takeVarint_write 1 (by decide)]
  simp only [Option.bind_eq_bind, Option.bind_some]
  rw [takeStr_write _ _ hid]
  simp only [ne_eq, not_true_eq_false, if_false, Option.bind_some, pure, PUnit.unit]
  rw [takeIf_write (fun rest => takeInfo_write q.info r h rest)]
  simp only [Option.bind_some]
  unfold takeSettings
  rw [takeStr_write [] _ (by decide)]
  simp only [Option.bind_eq_bind, Option.bind_some, if_true, pure]
  rw [takeIf_write (fun rest => takeStr_write [] rest (by decide))]
  have hs := q.stage.isLt
  simp only [Option.bind_some]
  rw [takeVarint_write _ (by omega)]
  simp only [Option.bind_some]
  have hc : ∀ rest, takeVarint ([if q.compressed then 1#8 else 0#8] ++ rest) = some (if q.compressed then 1 else 0, rest) := by
    intro rest; cases q.compressed <;> rfl
  rw [hc]
  simp only [Option.bind_some]
  rw [takeStr_write _ _ hq]
  rfl

/-- C41 for the packets the client really sends (`Client::query*`, `execute`, inserts): the server sees
an initial query by `ClickHouseclient` of protocol revision 54448, complete processing, and the text
of the caller byte for byte. -/
theorem C41_client_query (id text : Bytes) (major minor : Nat) (compressed : Bool) (r : Nat) (rest : Bytes)
    (hid : id.length < 2 ^ 63) (ht : text.length < 2 ^ 63) (h1 : major < 2 ^ 63) (h2 : minor < 2 ^ 63) :
    ∃ info, takeQuery r ((clientQuery id major minor compressed text).write r ++ rest) =
      some (⟨id, info, [], if r ≥ 54441 then some [] else none, 2, if compressed then 1 else 0, text⟩, rest) ∧
      info = if r < 54032 then none else some (some
        { kind := 1, initialUser := [], initialQueryId := [], initialAddress := utf8Encode (ch!"0.0.0.0:0"), interface := 1, osUser := [],
          hostname := utf8Encode (ch!"localhost"), clientName := utf8Encode (ch!"ClickHouseclient"), major := major, minor := minor,
          tcpVersion := 54448, quotaKey := if r < 54060 then none else some [], distributedDepth := if r < 54448 then none else some 1,
          patch := if r < 54401 then none else some 1, traced := if r < 54442 then none else some 0 }) := by
  refine ⟨_, C41_query_packet (clientQuery id major minor compressed text) r ?_ hid ht rest, ?_⟩
  · constructor <;> first | assumption | exact Nat.lt_of_le_of_lt (m := 1) (by decide) (by decide) | (show _ < _; simp only [clientQuery]; decide) | rfl
  · have sw : ∀ {α : Type} (n : Nat) (x y : α), (if r ≥ n then x else y) = if r < n then y else x := by
      intro α n x y
      by_cases h : r < n
      · rw [if_pos h, if_neg (by omega)]
      · rw [if_neg h, if_pos (by omega)]
    unfold seenInfo
    simp only [sw]
    rfl

/-- C41: the hello packet. -/
theorem C41_hello_packet (version database username password : Bytes) (major minor : Nat) (rest : Bytes)
    (hv : version.length < 2 ^ 63) (hd : database.length < 2 ^ 63) (hu : username.length < 2 ^ 63)
    (hp : password.length < 2 ^ 63) (h1 : major < 2 ^ 63) (h2 : minor < 2 ^ 63) :
    takeHello (writeHello version major minor database username password ++ rest) =
      some (⟨version, major, minor, 54448, database, username, password⟩, rest) := by
  unfold takeHello writeHello
  simp only [List.append_assoc]
  rw [takeVarint_write 0 (by decide)]
  simp only [Option.bind_eq_bind, Option.bind_some, ne_eq, not_true_eq_false, if_false, pure]
  rw [takeStr_write _ _ hv]
  simp only [Option.bind_some]
  rw [takeVarint_write _ h1]
  simp only [Option.bind_some]
  rw [takeVarint_write _ h2]
  simp only [Option.bind_some]
  rw [takeVarint_write _ (by decide)]
  simp only [Option.bind_some]
  rw [takeStr_write _ _ hd]
  simp only [Option.bind_some]
  rw [takeStr_write _ _ hu]
  simp only [Option.bind_some]
  rw [takeStr_write _ _ hp]
  rfl

/-- C41: a data packet is its id, the table name, and the block (plain, or in one frame). -/
theorem C41_data_packet (cfg : Cfg) (comp : Option Lz4) (b : Block) (name : Bytes) (scalar : Bool) (r : Nat)
    (hn : name.length < 2 ^ 63) (bytes : Bytes) (h : sendData cfg comp b name scalar r = (bytes, .ok ())) (rest : Bytes) :
    ∃ payload, takeDataHead (bytes ++ rest) = some ((if scalar then 7 else 2, name), payload ++ rest) ∧
      (comp = none → b.write cfg r = (payload, .ok ())) ∧
      (∀ lz, comp = some lz → compressData cfg lz b r = .ok payload) := by
  have hd : ∀ p, takeDataHead (writeVarUint (if scalar then 7 else 2) ++ (writeString name ++ p)) =
      some ((if scalar then 7 else 2, name), p) := by
    intro p
    unfold takeDataHead
    rw [takeVarint_write _ (by cases scalar <;> decide)]
    simp only [Option.bind_eq_bind, Option.bind_some]
    rw [takeStr_write _ _ hn]
    rfl
  unfold sendData at h
  cases comp with
  | none =>
    simp only [Prod.mk.injEq] at h
    refine ⟨(b.write cfg r).1, ?_, ⟨fun _ => Prod.ext rfl h.2, fun _ h => by cases h⟩⟩
    rw [← h.1]
    simp only [List.append_assoc]
    exact hd _
  | some lz =>
    simp only at h
    cases hc : compressData cfg lz b r with
    | ok f =>
      rw [hc] at h
      simp only [Prod.mk.injEq, and_true] at h
      refine ⟨f, ?_, ⟨(fun h => by cases h), (fun lz' h' => by cases h'; exact hc)⟩⟩
      rw [← h]
      simp only [List.append_assoc]
      exact hd _
    | err e => rw [hc] at h; simp at h
    | panic => rw [hc] at h; simp at h

example := C41_client_query [1, 2] (utf8Encode (ch!"SELECT 1")) 22 9 true 54460 [7] (by decide) (by decide) (by decide) (by decide)
example := C41_hello_packet [1] [2] [3] [4] 22 9 [] (by decide) (by decide) (by decide) (by decide) (by decide) (by decide)
example := C41_data_packet cfgDebug none exBlock [65] false 1 (by decide) _ rfl [3]

/-! ## C57 -/

/-- Sum of optional counters: absent only when all are absent. -/
def Spec.optSum (l : List (Option Nat)) : Option Nat :=
  if l.all Option.isNone then none else some (l.map (fun o => o.getD 0)).sum

/-- The exact totals of a list of progress reports. -/
def Spec.totals (ps : List Progress) : Progress :=
  ⟨(ps.map Progress.readRows).sum, (ps.map Progress.readBytes).sum, (ps.map Progress.totalRows).sum,
    optSum (ps.map Progress.writtenRows), optSum (ps.map Progress.writtenBytes)⟩

/-- Every counter of the report is a 64-bit number. -/
def Spec.Fits64 (p : Progress) : Prop :=
  p.readRows < 2 ^ 64 ∧ p.readBytes < 2 ^ 64 ∧ p.totalRows < 2 ^ 64 ∧
    p.writtenRows.getD 0 < 2 ^ 64 ∧ p.writtenBytes.getD 0 < 2 ^ 64

instance (p : Progress) : Decidable (Fits64 p) := by unfold Fits64; infer_instance

/-- Every counter modulo 2^64. -/
def Spec.wrap64 (p : Progress) : Progress :=
  ⟨p.readRows % 2 ^ 64, p.readBytes % 2 ^ 64, p.totalRows % 2 ^ 64, p.writtenRows.map (· % 2 ^ 64),
    p.writtenBytes.map (· % 2 ^ 64)⟩

/-- Accumulating reports with `+` or `+=`, left to right. -/
def sumProgress (cfg : Cfg) (ps : List Progress) : Res Progress :=
  ps.foldl (fun acc p => acc >>= fun a => a.add cfg p) (.ok Progress.zero)

/-- Outcome of an accumulation from its exact totals. -/
def finish64 (cfg : Cfg) (p : Progress) : Res Progress :=
  if Fits64 p then .ok p else if cfg.overflowChecks then .panic else .ok (wrap64 p)

/-- Exact sum of two reports. -/
def plus (p q : Progress) : Progress :=
  ⟨p.readRows + q.readRows, p.readBytes + q.readBytes, p.totalRows + q.totalRows,
    optSum [p.writtenRows, q.writtenRows], optSum [p.writtenBytes, q.writtenBytes]⟩

theorem optSum_getD (a b : Option Nat) : (optSum [a, b]).getD 0 = a.getD 0 + b.getD 0 := by
  cases a <;> cases b <;> simp [optSum]

theorem addU64_lt {cfg : Cfg} {a b : Nat} (h : a + b < 2 ^ 64) : addU64 cfg a b = .ok (a + b) := by
  unfold addU64; rw [if_pos h]

theorem addU64_debug {cfg : Cfg} (hc : cfg.overflowChecks = true) (a b : Nat) :
    addU64 cfg a b = if a + b < 2 ^ 64 then .ok (a + b) else .panic := by
  unfold addU64; split <;> simp_all

theorem addU64_release {cfg : Cfg} (hc : cfg.overflowChecks = false) (a b : Nat) :
    addU64 cfg a b = .ok ((a + b) % 2 ^ 64) := by
  unfold addU64
  split
  · rename_i h; rw [Nat.mod_eq_of_lt h]
  · simp [hc]

theorem sumOpt_release {cfg : Cfg} (hc : cfg.overflowChecks = false) (a b : Option Nat) (ha : a.getD 0 < 2 ^ 64)
    (hb : b.getD 0 < 2 ^ 64) : sumOpt cfg a b = .ok ((optSum [a, b]).map (· % 2 ^ 64)) := by
  cases a <;> cases b <;> simp_all [sumOpt, optSum, addU64_release] <;> rw [Nat.mod_eq_of_lt (by assumption)]

theorem sumOpt_debug {cfg : Cfg} (hc : cfg.overflowChecks = true) (a b : Option Nat) (ha : a.getD 0 < 2 ^ 64)
    (hb : b.getD 0 < 2 ^ 64) :
    sumOpt cfg a b = if a.getD 0 + b.getD 0 < 2 ^ 64 then .ok (optSum [a, b]) else .panic := by
  cases a <;> cases b <;> simp_all [sumOpt, optSum, addU64_debug]
  split <;> rfl

theorem getD_map_mod (o : Option Nat) : (o.map (· % 2 ^ 64)).getD 0 = o.getD 0 % 2 ^ 64 := by cases o <;> simp

theorem map_mod_of_lt {o : Option Nat} (h : o.getD 0 < 2 ^ 64) : o.map (· % 2 ^ 64) = o := by
  cases o with
  | none => rfl
  | some a => simp only [Option.getD_some] at h; simp only [Option.map_some, Nat.mod_eq_of_lt h]

theorem wrap64_of_fits {p : Progress} (h : Fits64 p) : wrap64 p = p := by
  obtain ⟨h1, h2, h3, h4, h5⟩ := h
  unfold wrap64
  rw [Nat.mod_eq_of_lt h1, Nat.mod_eq_of_lt h2, Nat.mod_eq_of_lt h3, map_mod_of_lt h4, map_mod_of_lt h5]

theorem finish64_release {cfg : Cfg} (hc : cfg.overflowChecks = false) (p : Progress) : finish64 cfg p = .ok (wrap64 p) := by
  unfold finish64
  split
  · rw [wrap64_of_fits (by assumption)]
  · simp [hc]

theorem optSum_mod (a b : Option Nat) :
    (optSum [a.map (· % 2 ^ 64), b]).map (· % 2 ^ 64) = (optSum [a, b]).map (· % 2 ^ 64) := by
  cases a <;> cases b <;> simp [optSum]

theorem add_finish (cfg : Cfg) (t p : Progress) (hp : Fits64 p) :
    (finish64 cfg t >>= fun a => a.add cfg p) = finish64 cfg (plus t p) := by
  cases hc : cfg.overflowChecks with
  | false =>
    rw [finish64_release hc, finish64_release hc, Res.bind_ok]
    obtain ⟨h1, h2, h3, h4, h5⟩ := hp
    have m : ∀ o : Option Nat, (o.map (· % 2 ^ 64)).getD 0 < 2 ^ 64 := by
      intro o; rw [getD_map_mod]; exact Nat.mod_lt _ (by decide)
    unfold Progress.add
    simp only [addU64_release hc, wrap64, Res.bind_ok, sumOpt_release hc _ _ (m _) h4, sumOpt_release hc _ _ (m _) h5]
    simp only [plus, Nat.mod_add_mod, optSum_mod]
  | true =>
    have hadd : ∀ t : Progress, Fits64 t → t.add cfg p = finish64 cfg (plus t p) := by
      intro t ht
      obtain ⟨h1, h2, h3, h4, h5⟩ := hp
      obtain ⟨g1, g2, g3, g4, g5⟩ := ht
      unfold Progress.add finish64
      rw [addU64_debug hc, addU64_debug hc, addU64_debug hc, sumOpt_debug hc _ _ g4 h4, sumOpt_debug hc _ _ g5 h5]
      rw [if_pos hc]
      simp only [Fits64, plus, optSum_getD]
      by_cases a1 : t.readRows + p.readRows < 2 ^ 64
      · by_cases a2 : t.readBytes + p.readBytes < 2 ^ 64
        · by_cases a3 : t.totalRows + p.totalRows < 2 ^ 64
          · by_cases a4 : t.writtenRows.getD 0 + p.writtenRows.getD 0 < 2 ^ 64
            · by_cases a5 : t.writtenBytes.getD 0 + p.writtenBytes.getD 0 < 2 ^ 64
              · simp only [if_pos a1, if_pos a2, if_pos a3, if_pos a4, if_pos a5, Res.bind_ok]
                rw [if_pos ⟨a1, a2, a3, a4, a5⟩]
              · simp only [if_pos a1, if_pos a2, if_pos a3, if_pos a4, if_neg a5, Res.bind_ok, Res.bind_panic]
                rw [if_neg (fun h => a5 h.2.2.2.2)]
            · simp only [if_pos a1, if_pos a2, if_pos a3, if_neg a4, Res.bind_ok, Res.bind_panic]
              rw [if_neg (fun h => a4 h.2.2.2.1)]
          · simp only [if_pos a1, if_pos a2, if_neg a3, Res.bind_ok, Res.bind_panic]
            rw [if_neg (fun h => a3 h.2.2.1)]
        · simp only [if_pos a1, if_neg a2, Res.bind_ok, Res.bind_panic]
          rw [if_neg (fun h => a2 h.2.1)]
      · simp only [if_neg a1, Res.bind_panic]
        rw [if_neg (fun h => a1 h.1)]
    by_cases ht : Fits64 t
    · conv => lhs; unfold finish64
      rw [if_pos ht, Res.bind_ok]
      exact hadd t ht
    · have hn : ¬ Fits64 (plus t p) := by
        intro h
        apply ht
        unfold Fits64 plus at h
        simp only [optSum_getD] at h
        unfold Fits64
        omega
      unfold finish64
      rw [if_neg ht, if_neg hn]
      simp only [hc, if_true, Res.bind_panic]

theorem optSum_append_single (l : List (Option Nat)) (o : Option Nat) : optSum [optSum l, o] = optSum (l ++ [o]) := by
  unfold optSum
  by_cases h : l.all Option.isNone
  · simp only [h, if_true, List.all_append, Bool.true_and, List.map_append, List.sum_append]
    have : (l.map (fun o => o.getD 0)).sum = 0 := by
      clear o
      induction l with
      | nil => rfl
      | cons a l ih =>
        simp only [List.all_cons, Bool.and_eq_true] at h
        have : a = none := by simpa using h.1
        simp [this, ih h.2]
    cases o <;> simp [this]
  · simp only [h, if_false, Bool.false_eq_true, List.all_append, Bool.false_and]
    cases o <;> simp

theorem sumProgress_finish (cfg : Cfg) : ∀ (ps qs : List Progress), (∀ p ∈ qs, Fits64 p) →
    qs.foldl (fun acc p => acc >>= fun a => a.add cfg p) (finish64 cfg (totals ps)) = finish64 cfg (totals (ps ++ qs)) := by
  intro ps qs
  induction qs generalizing ps with
  | nil => intro _; simp
  | cons q qs ih =>
    intro h
    rw [List.foldl_cons, add_finish cfg _ q (h q (by simp))]
    have e : plus (totals ps) q = totals (ps ++ [q]) := by
      simp [plus, totals, optSum_append_single]
    rw [e, ih _ (fun p hp => h p (by simp [hp]))]
    simp

/-- C57: accumulating any sequence of reports gives the exact totals as long as every total fits 64
bits; past that it panics with overflow checks and wraps around without them. Written counters are
absent only if no report had them. -/
theorem C57_totals (cfg : Cfg) (ps : List Progress) (h : ∀ p ∈ ps, Fits64 p) :
    sumProgress cfg ps =
      if Fits64 (totals ps) then .ok (totals ps)
      else if cfg.overflowChecks then .panic else .ok (wrap64 (totals ps)) :=
  sumProgress_finish cfg [] ps h

/-- C57: the order of the reports does not matter, even past 64 bits. -/
theorem C57_order (cfg : Cfg) (ps qs : List Progress) (h : ∀ p ∈ ps, Fits64 p) (hp : ps.Perm qs) :
    sumProgress cfg ps = sumProgress cfg qs := by
  rw [C57_totals cfg ps h, C57_totals cfg qs (fun p hq => h p (hp.mem_iff.mpr hq))]
  have e : totals ps = totals qs := by
    have s : ∀ f : Progress → Nat, (ps.map f).sum = (qs.map f).sum := fun f => (hp.map f).sum_nat
    have o : ∀ f : Progress → Option Nat, optSum (ps.map f) = optSum (qs.map f) := by
      intro f
      unfold optSum
      rw [((hp.map f).map (fun o => o.getD 0)).sum_nat]
      have : (ps.map f).all Option.isNone = (qs.map f).all Option.isNone := by
        rw [Bool.eq_iff_iff, List.all_eq_true, List.all_eq_true]
        exact ⟨fun h x hx => h x ((hp.map f).mem_iff.mpr hx), fun h x hx => h x ((hp.map f).mem_iff.mp hx)⟩
      rw [this]
    simp only [totals, s, o]
  rw [e]

/-- C57: nor does the grouping: totals of two batches can be added. -/
theorem C57_grouping (cfg : Cfg) (ps qs : List Progress) (h1 : ∀ p ∈ ps, Fits64 p) (h2 : ∀ p ∈ qs, Fits64 p)
    (hq : Fits64 (totals qs)) :
    (sumProgress cfg ps >>= fun a => sumProgress cfg qs >>= fun b => a.add cfg b) = sumProgress cfg (ps ++ qs) := by
  have hps := sumProgress_finish cfg [] ps h1
  have hqs : sumProgress cfg qs = .ok (totals qs) := by rw [C57_totals cfg qs h2, if_pos hq]
  have hpq := sumProgress_finish cfg [] (ps ++ qs) (by
    intro p hp; rcases List.mem_append.mp hp with h | h
    · exact h1 p h
    · exact h2 p h)
  rw [List.nil_append] at hps hpq
  have e0 : sumProgress cfg ps = finish64 cfg (totals ps) := hps
  have e1 : sumProgress cfg (ps ++ qs) = finish64 cfg (totals (ps ++ qs)) := hpq
  rw [hqs, e0, e1]
  simp only [Res.bind_ok]
  rw [add_finish cfg _ _ hq]
  have oapp : ∀ l m : List (Option Nat), optSum [optSum l, optSum m] = optSum (l ++ m) := by
    intro l m
    induction m generalizing l with
    | nil => simp [optSum]; split <;> simp_all
    | cons o m ih =>
      rw [show l ++ o :: m = (l ++ [o]) ++ m by simp, ← ih (l ++ [o]), ← optSum_append_single]
      have : o :: m = [o] ++ m := rfl
      rw [this]
      have e3 : optSum ([o] ++ m) = optSum [o, optSum m] := by
        cases o <;> simp only [optSum] <;> by_cases hm : m.all Option.isNone <;> simp [hm]
        clear ih this
        induction m with
        | nil => rfl
        | cons a m ihm =>
          simp only [List.all_cons, Bool.and_eq_true] at hm
          have ha : a = none := by simpa using hm.1
          simp [ha, ihm hm.2]
      rw [e3]
      generalize optSum l = a
      generalize optSum m = b
      cases a <;> cases o <;> cases b <;> simp [optSum, Nat.add_assoc]
  congr 1
  simp [plus, totals, oapp]

example := C57_totals cfgDebug [⟨1, 2, 3, none, some 4⟩, ⟨5, 6, 7, none, none⟩] (by decide)
example := C57_order cfgDebug [⟨1, 2, 3, none, some 4⟩, ⟨2 ^ 64 - 1, 6, 7, none, none⟩]
  [⟨2 ^ 64 - 1, 6, 7, none, none⟩, ⟨1, 2, 3, none, some 4⟩] (by decide) (List.Perm.swap _ _ _)
example := C57_grouping cfgDebug [⟨1, 2, 3, none, some 4⟩] [⟨5, 6, 7, none, none⟩] (by decide) (by decide) (by decide)

end Klick
