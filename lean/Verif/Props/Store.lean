import Verif.Proofs.Store
import Verif.Props.KV
import Verif.Model.Proof
/-
C76: the key-value store promised by `storage/kv/kv.go`, as `leveldbkv` implements it on LevelDB.
-/
namespace Coniks.Props
open Coniks Spec

/-- C76: after any history of calls, crashes and restarts, the open store holds exactly what the calls that returned wrote, in
their order, plus, for each call that was cut off by a crash, all or nothing of it. -/
theorem C76_contents (es : List StoreEv) (db : LevelDB) (h : storeAfter storeEmpty es = some db) (ho : db.closed = false) :
    ∃ ops ∈ outcomes true es,
      ∀ k, storeGet db k = match valueOf k ops with | some v => .ok v | none => .error .notFound := by
  obtain ⟨_, a, ha, e⟩ := storeAfter_spec es storeEmpty db rfl h
  refine ⟨a, ha, fun k => ?_⟩
  rw [storeGet, get_of_table db k ho, e]
  rfl

theorem valueOf_append (k : Bytes) (a b : List StoreOp) :
    valueOf k (a ++ b) = match (b.filterMap (saysOf k)).getLast? with | some x => x | none => valueOf k a := by
  unfold valueOf
  rw [List.filterMap_append, List.getLast?_append]
  cases (b.filterMap (saysOf k)).getLast? with
  | none => simp
  | some x => simp

theorem untouched (k : Bytes) : ∀ (es : List StoreEv) (o : Bool), (∀ e ∈ es, ¬ WritesKey k e) → ∀ a ∈ outcomes o es,
    a.filterMap (saysOf k) = [] := by
  intro es
  induction es with
  | nil => intro o _ a ha; simp [outcomes] at ha; simp [ha]
  | cons e es ih =>
    intro o h a ha
    rw [outcomes, List.mem_flatMap] at ha
    obtain ⟨x, hx, ha⟩ := ha
    obtain ⟨y, hy, rfl⟩ := List.mem_map.mp ha
    rw [List.filterMap_append, ih _ (fun e' he' => h e' (List.mem_cons_of_mem _ he')) y hy, List.append_nil]
    cases o with
    | false => simp only [Bool.false_eq_true, if_false, List.mem_singleton] at hx; simp [hx]
    | true =>
      simp only [if_true] at hx
      have ht := h e List.mem_cons_self
      rw [List.filterMap_eq_nil_iff]
      intro op hop
      cases op with
      | put k' v =>
        simp only [saysOf]
        by_cases e1 : k' = k
        · exact absurd ⟨x, hx, _, hop, Or.inr ⟨v, by rw [e1]⟩⟩ ht
        · simp [e1]
      | del k' =>
        simp only [saysOf]
        by_cases e1 : k' = k
        · exact absurd ⟨x, hx, _, hop, Or.inl (by rw [e1])⟩ ht
        · simp [e1]

/-- C76, the promise in the words of kv.go:20-27: after `Put(k, v)` has returned, and as long as nothing else writes `k`, `Get(k)`
returns `v`, whatever crashes and restarts happened in the meantime. -/
theorem C76_put_lasts (es₁ es₂ : List StoreEv) (k v : Bytes) (d₁ d₂ db : LevelDB)
    (h₁ : storeAfter storeEmpty es₁ = some d₁) (hp : storePut d₁ k v = (d₂, .ok ()))
    (h₂ : storeAfter d₂ es₂ = some db) (hq : ∀ e ∈ es₂, ¬ WritesKey k e) (ho : db.closed = false) :
    storeGet db k = .ok v := by
  obtain ⟨s1, a, ha, e1⟩ := storeAfter_spec es₁ storeEmpty d₁ rfl h₁
  obtain ⟨w1, w2, w3⟩ := write_effect [.put k v] s1
  have hd : (d₁.write [.put k v] true).1 = d₂ := by
    have := congrArg Prod.fst hp
    exact this
  have hc : d₁.closed = false := by
    cases hc : d₁.closed with
    | false => rfl
    | true => simp [storePut, LevelDB.write, hc] at hp
  rw [hd, hc] at w2 w3
  rw [hd] at w1
  obtain ⟨_, b, hb, e2⟩ := storeAfter_spec es₂ d₂ db w1 h₂
  rw [storeGet, get_of_table db k ho, e2, w3]
  rw [valueOf_append, untouched k es₂ _ hq b hb]
  simp only [List.getLast?_nil, Bool.false_eq_true, if_false]
  rw [valueOf_snoc]
  simp [saysOf]

/-- C76: the same for `Delete`. -/
theorem C76_delete_lasts (es₁ es₂ : List StoreEv) (k : Bytes) (d₁ d₂ db : LevelDB)
    (h₁ : storeAfter storeEmpty es₁ = some d₁) (hp : storeDelete d₁ k = (d₂, .ok ()))
    (h₂ : storeAfter d₂ es₂ = some db) (hq : ∀ e ∈ es₂, ¬ WritesKey k e) (ho : db.closed = false) :
    storeGet db k = .error .notFound := by
  obtain ⟨s1, a, ha, e1⟩ := storeAfter_spec es₁ storeEmpty d₁ rfl h₁
  obtain ⟨w1, w2, w3⟩ := write_effect [.del k] s1
  have hd : (d₁.write [.del k] true).1 = d₂ := congrArg Prod.fst hp
  have hc : d₁.closed = false := by
    cases hc : d₁.closed with
    | false => rfl
    | true => simp [storeDelete, LevelDB.write, hc] at hp
  rw [hd, hc] at w2 w3
  rw [hd] at w1
  obtain ⟨_, b, hb, e2⟩ := storeAfter_spec es₂ d₂ db w1 h₂
  rw [storeGet, get_of_table db k ho, e2, w3]
  rw [valueOf_append, untouched k es₂ _ hq b hb]
  simp only [List.getLast?_nil, Bool.false_eq_true, if_false]
  rw [valueOf_snoc]
  simp [saysOf]

/-- C76: a batch holds what was put into it since it was last reset, in order. -/
theorem C76_batch (before after : List BatchCall) (h : BatchCall.reset ∉ after) :
    (batchAfter (before ++ .reset :: after)).map some = after.map callOp ∧
    (batchAfter after).map some = after.map callOp := by
  have key : ∀ (after : List BatchCall) (b : List StoreOp), BatchCall.reset ∉ after →
      (after.foldl (fun b c => match c with
        | BatchCall.reset => []
        | .put k v => b ++ [StoreOp.put k v]
        | .del k => b ++ [.del k]) b).map some = b.map some ++ after.map callOp := by
    intro after
    induction after with
    | nil => intro b _; simp
    | cons c cs ih =>
      intro b hb
      rw [List.foldl_cons]
      have hcs : BatchCall.reset ∉ cs := fun h => hb (List.mem_cons_of_mem _ h)
      cases c with
      | reset => simp at hb
      | put k v => dsimp only; rw [ih _ hcs]; simp [callOp]
      | del k => dsimp only; rw [ih _ hcs]; simp [callOp]
  constructor
  · unfold batchAfter
    rw [List.foldl_append, List.foldl_cons]
    exact (key after [] h).trans (by simp)
  · exact (key after [] h).trans (by simp)

/-- C76: a call fails only on a closed store or with a batch that is not the store's own, and then changes nothing; a call that
succeeds appends its entries. -/
theorem C76_failures (db : LevelDB) (k v : Bytes) (b : Option (List StoreOp)) :
    (storePut db k v).2 = (if db.closed then .error .closed else .ok ()) ∧
    (storeDelete db k).2 = (if db.closed then .error .closed else .ok ()) ∧
    (storeWrite db b).2 = (if b = none then .error .wrongBatch else if db.closed then .error .closed else .ok ()) ∧
    (db.closed = true → storeGet db k = .error .closed ∧ (storeIter db none).items = [] ∧ (storePut db k v).1 = db ∧
      (storeDelete db k).1 = db ∧ (storeWrite db b).1 = db) ∧
    (storeWrite db none).1 = db := by
  refine ⟨?_, ?_, ?_, ?_, rfl⟩
  · cases h : db.closed <;> simp [storePut, LevelDB.write, h]
  · cases h : db.closed <;> simp [storeDelete, LevelDB.write, h]
  · cases b <;> cases h : db.closed <;> simp [storeWrite, LevelDB.write, h]
  · intro h
    refine ⟨by simp [storeGet, LevelDB.get, h], by simp [storeIter, h], by simp [storePut, LevelDB.write, h],
      by simp [storeDelete, LevelDB.write, h], ?_⟩
    cases b <;> simp [storeWrite, LevelDB.write, h]

/-- the loop visits the items in order and stops -/
theorem scan_from (items : List (Bytes × Bytes)) : ∀ (r i n : Nat), i + r = items.length → r ≤ n → i < items.length →
    scan n ({ items := items, pos := .at_ i }, true) = (items.drop i).map some := by
  intro r
  induction r with
  | zero => intro i n h _ hi; omega
  | succ r ih =>
    intro i n h hn hi
    obtain ⟨n, rfl⟩ : ∃ m, n = m + 1 := ⟨n - 1, by omega⟩
    rw [scan, if_pos rfl]
    have he : StoreIter.entry { items := items, pos := .at_ i } = some items[i] := by
      simp [StoreIter.entry, List.getElem?_eq_getElem hi]
    rw [he, List.drop_eq_getElem_cons hi]
    by_cases hl : i + 1 < items.length
    · have hx : StoreIter.next { items := items, pos := .at_ i } = ({ items := items, pos := .at_ (i + 1) }, true) := by
        simp [StoreIter.next, hl]
      rw [hx, ih (i + 1) n (by omega) (by omega) hl]
      rfl
    · have hx : StoreIter.next { items := items, pos := .at_ i } = ({ items := items, pos := .after }, false) := by
        simp [StoreIter.next, hl]
      rw [hx, List.drop_eq_nil_of_le (by omega)]
      cases n <;> simp [scan]

theorem scan_first (it : StoreIter) (n : Nat) (h : it.items.length ≤ n) : scan n it.first = it.items.map some := by
  unfold StoreIter.first
  by_cases h0 : it.items.length = 0
  · rw [if_pos h0]
    have := List.length_eq_zero_iff.mp h0
    rw [this]
    cases n <;> simp [scan]
  · rw [if_neg h0]
    exact (scan_from it.items it.items.length 0 n (by omega) h (by omega)).trans (by simp)

theorem iter_items (es : List StoreEv) (db : LevelDB) (h : storeAfter storeEmpty es = some db) (ho : db.closed = false)
    (rg : Option KVRange) : IsScan (fun k => (storeGet db k).toOption)
      (Wanted rg) (storeIter db rg).items := by
  obtain ⟨hord, hm⟩ := table_spec db.log.flatten
  have hg : ∀ k v, (storeGet db k).toOption = some v ↔ valueOf k db.log.flatten = some v := by
    intro k v
    rw [storeGet, get_of_table db k ho]
    cases valueOf k db.log.flatten <;> simp [Except.toOption]
  unfold storeIter
  rw [ho]
  simp only [Bool.false_eq_true, if_false]
  cases rg with
  | none =>
    refine ⟨hord, fun k v => ?_⟩
    rw [hg]
    simp only [Wanted, true_and]
    exact hm k v
  | some r =>
    refine ⟨List.Pairwise.filter _ hord, fun k v => ?_⟩
    rw [hg]
    simp only [LevelDB.slice, List.mem_filter, Bool.and_eq_true, Bool.not_eq_true']
    rw [show ((k, v) ∈ db.table ↔ valueOf k db.log.flatten = some v) from hm k v]
    have e1 : bytesLt k r.start = false ↔ LexLe r.start k := by
      rw [← Bool.not_eq_true, bytesLt_iff, LexLe]
      constructor
      · intro hn
        rcases lexLt_total r.start k with a | a | a
        · exact Or.inl a
        · exact Or.inr a
        · exact absurd a hn
      · rintro (a | a) hn
        · exact lexLt_irrefl _ (lexLt_trans a hn)
        · rw [a] at hn; exact lexLt_irrefl _ hn
    rw [e1, Wanted, InRange]
    cases hlim : r.limit with
    | none => simp [and_comm]
    | some l => simp [bytesLt_iff, and_comm]

/-- C76: the usual loop over an iterator ends and shows the entries of the range, each once, in key order, with the values `Get`
returns; a nil range is everything. -/
theorem C76_scan (es : List StoreEv) (db : LevelDB) (h : storeAfter storeEmpty es = some db) (ho : db.closed = false)
    (rg : Option KVRange) : ∃ l, IsScan (fun k => (storeGet db k).toOption)
        (Wanted rg) l ∧
      (∀ n, l.length ≤ n → scan n (storeIter db rg).first = l.map some ∧ scan n (storeIter db rg).next = l.map some) ∧
      (((storeIter db rg).last).2 = true → ((storeIter db rg).last).1.entry = l.getLast?) ∧
      (((storeIter db rg).last).2 = true ↔ l ≠ []) := by
  refine ⟨_, iter_items es db h ho rg, fun n hn => ⟨scan_first _ n hn, ?_⟩, ?_, ?_⟩
  · have hb : (storeIter db rg).next = (storeIter db rg).first := by
      unfold storeIter
      rw [ho]
      cases rg <;> rfl
    rw [hb]
    exact scan_first _ n hn
  · unfold StoreIter.last
    by_cases h0 : (storeIter db rg).items.length = 0
    · rw [if_pos h0]; intro h; cases h
    · rw [if_neg h0]
      intro _
      simp only [StoreIter.entry]
      rw [List.getLast?_eq_getElem?]
  · unfold StoreIter.last
    by_cases h0 : (storeIter db rg).items.length = 0
    · rw [if_pos h0]; simp [List.length_eq_zero_iff.mp h0]
    · rw [if_neg h0]
      simp only [true_iff]
      intro e; exact h0 (by rw [e]; rfl)

/-- C76: a scan of `BytesPrefix(p)` shows exactly the entries whose keys have the prefix `p`. -/
theorem C76_prefix_scan (es : List StoreEv) (db : LevelDB) (h : storeAfter storeEmpty es = some db) (ho : db.closed = false)
    (p : Bytes) : ∃ l : List (Bytes × Bytes), l.Pairwise (fun a b => LexLt a.1 b.1) ∧
      (∀ k v, (k, v) ∈ l ↔ p <+: k ∧ storeGet db k = .ok v) ∧
      ∀ n, l.length ≤ n → scan n (storeIter db (some (bytesPrefix p))).first = l.map some := by
  obtain ⟨l, ⟨h1, h2⟩, h3, _⟩ := C76_scan es db h ho (some (bytesPrefix p))
  refine ⟨l, h1, fun k v => ?_, fun n hn => (h3 n hn).1⟩
  rw [h2, Wanted, C03_bytesPrefix_exact]
  dsimp only
  cases storeGet db k with
  | ok w => simp [Except.toOption]
  | error e => simp [Except.toOption]

/-- a history with an interrupted batch that got through, one that did not, and a restart -/
def sampleStore : List StoreEv :=
  [.put [1, 2] [9], .put [1] [7], .crash (some [.put [1, 3] [8], .del [1]]) 3, .write (some [.put [2] [5], .put [1, 0xff] [6]]),
   .delete [2], .crash (some [.del [1, 2]]) 5, .close, .reopen]

example : ∃ db, storeAfter storeEmpty sampleStore = some db ∧ db.closed = false ∧
    storeGet db [1, 2] = .ok [9] ∧ storeGet db [1] = .error .notFound ∧ storeGet db [2] = .error .notFound ∧
    scan 10 (storeIter db (some (bytesPrefix [1]))).first =
      [some ([1, 2], [9]), some ([1, 3], [8]), some ([1, 0xff], [6])] := by
  have key : ((storeAfter storeEmpty sampleStore).any fun db => decide (db.closed = false ∧
    storeGet db [1, 2] = .ok [9] ∧ storeGet db [1] = .error .notFound ∧ storeGet db [2] = .error .notFound ∧
    scan 10 (storeIter db (some (bytesPrefix [1]))).first =
      [some ([1, 2], [9]), some ([1, 3], [8]), some ([1, 0xff], [6])])) = true := by decide +kernel
  obtain ⟨db, h1, h2⟩ := (Option.any_eq_true _ _).mp key
  exact ⟨db, h1, by simpa using h2⟩

/-- the hypotheses of `C76_put_lasts`, with a crash in the middle of another write after the put -/
example : ∃ d₁ d₂ db, storeAfter storeEmpty [.put [1] [2]] = some d₁ ∧ storePut d₁ [3] [4] = (d₂, .ok ()) ∧
    storeAfter d₂ [.crash (some [.del [1]]) 2, .put [5] [6]] = some db ∧ db.closed = false ∧
    ∀ e ∈ [StoreEv.crash (some [.del [1]]) 2, .put [5] [6]], ¬ WritesKey [3] e := by
  refine ⟨_, _, _, rfl, rfl, rfl, rfl, ?_⟩
  intro e he
  simp only [List.mem_cons, List.not_mem_nil, or_false] at he
  rcases he with rfl | rfl <;> simp [WritesKey, effects]

/-- without `Sync` a write that returned can be gone after a crash: this is what the `Sync: true` of leveldbkv.go is for -/
example : ∃ db, ((storeEmpty.write [.put [1] [2]] false).1).recover 0 = some db ∧ storeGet db [1] = .error .notFound :=
  ⟨_, rfl, by decide +kernel⟩

end Coniks.Props
