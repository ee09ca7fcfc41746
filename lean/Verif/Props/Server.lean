import Verif.Proofs.Server
import Verif.Props.Directory
/-
C31, C45, C46, C47: the key server around the directory.
-/
namespace Coniks.Props
open Coniks Spec

/-! ### C47 -/

/-- C47. In every state, for every request with a payload that is not a nil pointer: if type and payload ask for an operation, the
server does exactly that operation and gives its answer; otherwise it answers `ErrMalformedMessage` and changes nothing. -/
theorem C47_dispatch (C : Crypto) (rnd : Option Bytes) (d : Directory) (req : Request) (nn : NonNil req) :
    match operation rnd req with
    | some op => ((d.handleRequests C rnd req).map fun x => (x.1, some x.2)) = d.step C op
    | none => d.handleRequests C rnd req = some (d, ⟨ErrMalformedMessage, .none⟩) := by
  cases h : operation rnd req with
  | none => exact handle_mismatch nn h
  | some op => exact handle_operation h

/-- C47. A message that is decoded carries the payload of its type, decoded from its content, and no payload for other types. -/
theorem C47_decoded (J : Json) (msg : Bytes) (req : Request) (h : unmarshalRequest J msg = some req) :
    NonNil req ∧ ∃ content, J.envelope msg = some (req.type, content) ∧
      ((req.type = 0 ∧ ∃ r, J.registration content = some r ∧ req.payload = .registration r) ∨
       (req.type = 1 ∧ ∃ r, J.keyLookup content = some r ∧ req.payload = .keyLookup r) ∨
       (req.type = 2 ∧ ∃ r, J.keyLookupInEpoch content = some r ∧ req.payload = .keyLookupInEpoch r) ∨
       (req.type = 3 ∧ ∃ r, J.monitoring content = some r ∧ req.payload = .monitoring r) ∨
       (req.type ∉ [0, 1, 2, 3] ∧ req.payload = .other)) := by
  refine ⟨unmarshal_nonNil h, ?_⟩
  obtain ⟨⟨t, content⟩, he, h⟩ := Option.bind_eq_some_iff.mp h
  dsimp only at h
  by_cases h0 : t = RegistrationType
  · rw [if_pos h0] at h
    obtain ⟨r, hr, rfl⟩ := Option.map_eq_some_iff.mp h
    exact ⟨content, he, Or.inl ⟨h0, r, hr, rfl⟩⟩
  rw [if_neg h0] at h
  by_cases h1 : t = KeyLookupType
  · rw [if_pos h1] at h
    obtain ⟨r, hr, rfl⟩ := Option.map_eq_some_iff.mp h
    exact ⟨content, he, Or.inr (Or.inl ⟨h1, r, hr, rfl⟩)⟩
  rw [if_neg h1] at h
  by_cases h2 : t = KeyLookupInEpochType
  · rw [if_pos h2] at h
    obtain ⟨r, hr, rfl⟩ := Option.map_eq_some_iff.mp h
    exact ⟨content, he, Or.inr (Or.inr (Or.inl ⟨h2, r, hr, rfl⟩))⟩
  rw [if_neg h2] at h
  by_cases h3 : t = MonitoringType
  · rw [if_pos h3] at h
    obtain ⟨r, hr, rfl⟩ := Option.map_eq_some_iff.mp h
    exact ⟨content, he, Or.inr (Or.inr (Or.inr (Or.inl ⟨h3, r, hr, rfl⟩)))⟩
  rw [if_neg h3] at h
  obtain ⟨r, hr, rfl⟩ := Option.map_eq_some_iff.mp h
  exact ⟨content, he, Or.inr (Or.inr (Or.inr (Or.inr ⟨by
    simp only [RegistrationType, KeyLookupType, KeyLookupInEpochType, MonitoringType] at h0 h1 h2 h3
    simp [h0, h1, h2, h3], rfl⟩)))⟩

/-- a toy codec: the first byte is the type, the content of a lookup is the name, of a registration one byte of name, then the key -/
def toyJson : Json where
  Content := Bytes
  envelope := fun m => match m with
    | [] => none
    | b :: c => some ((b.toNat : Int), c)
  registration := fun c => match c with
    | [] => none
    | b :: k => some ⟨[b], k⟩
  keyLookup := fun c => if c = [] then none else some ⟨c⟩
  keyLookupInEpoch := fun _ => none
  monitoring := fun c => if c = [] then none else some ⟨c, 0, 10⟩
  any := fun c => if c = [] then none else some ()

/-- a lookup, a registration, a message of unknown type, one without content -/
example : unmarshalRequest toyJson [1, 0x61] = some ⟨1, .keyLookup ⟨[0x61]⟩⟩ ∧
    unmarshalRequest toyJson [0, 0x61, 5] = some ⟨0, .registration ⟨[0x61], [5]⟩⟩ ∧
    unmarshalRequest toyJson [9, 1] = some ⟨9, .other⟩ ∧ unmarshalRequest toyJson [1] = none := by decide

/-- a lookup payload under the type of a registration is refused, and a matching one is performed -/
example (C : Crypto) (d : Directory) :
    d.handleRequests C none ⟨0, .keyLookup ⟨[0x61]⟩⟩ = some (d, ⟨ErrMalformedMessage, .none⟩) ∧
    operation none ⟨1, .keyLookup ⟨[0x61]⟩⟩ = some (.keyLookup ⟨[0x61]⟩) :=
  ⟨C47_dispatch C none d ⟨0, .keyLookup ⟨[0x61]⟩⟩ (by simp [NonNil]), rfl⟩

/-- C47. The restriction to non-nil payloads is needed: `HandleRequests` called directly with a typed nil pointer panics. -/
theorem C47_nil_counterexample (C : Crypto) (rnd : Option Bytes) (d : Directory) :
    Panics (d.handleRequests C rnd ⟨0, .nilRegistration⟩) ∧ Panics (d.handleRequests C rnd ⟨1, .nilKeyLookup⟩) ∧
    Panics (d.handleRequests C rnd ⟨2, .nilKeyLookupInEpoch⟩) ∧ Panics (d.handleRequests C rnd ⟨3, .nilMonitoring⟩) := by
  simp [Panics, Directory.handleRequests, RegistrationType, KeyLookupType, KeyLookupInEpochType, MonitoringType]

/-! ### C31 -/

/-- C31. After every history of calls, the server answers every request with a non-nil payload. -/
theorem C31_no_request_crashes (C : Crypto) (t0 : UInt64) (sk vk : Bytes) (size : Nat) (r₁ r₂ : Bytes) (ops : List DirOp)
    (hlt : dirUpdates ops < 2 ^ 64) (d : Directory) (log : List STR) (h : dirAfter C t0 sk vk size r₁ r₂ ops = some (d, log))
    (rnd : Option Bytes) (req : Request) (nn : NonNil req) : ∃ d' resp, d.handleRequests C rnd req = some (d', resp) := by
  obtain ⟨inv, _⟩ := dirAfter_padInv C t0 sk vk size r₁ r₂ ops hlt d log h
  obtain ⟨d', r, _, h1, _⟩ := job_runs inv (.request rnd req) nn
  obtain ⟨x, hx, _⟩ := Option.map_eq_some_iff.mp h1
  exact ⟨x.1, x.2, hx⟩

/-- C31. Whatever bytes arrive on a connection, `acceptClient` does not panic (and a decoded request is never a nil pointer). -/
theorem C31_no_bytes_crash (C : Crypto) (J : Json) (t0 : UInt64) (sk vk : Bytes) (size : Nat) (r₁ r₂ : Bytes) (ops : List DirOp)
    (hlt : dirUpdates ops < 2 ^ 64) (d : Directory) (log : List STR) (h : dirAfter C t0 sk vk size r₁ r₂ ops = some (d, log))
    (perms : Nat → Int → Bool) (addr : Nat) (rnd : Option Bytes) (c : Conn) :
    ∃ d' resp, acceptClient C J perms rnd d addr c = some (d', resp) := by
  unfold acceptClient
  cases hs : screen J perms addr c with
  | inr r => exact ⟨d, r, rfl⟩
  | inl req =>
    have nn : NonNil req := by
      unfold screen at hs
      split at hs
      · cases hs
      · split at hs
        · cases hs
        · rename_i hu
          split at hs
          · cases hs
          · cases hs; exact unmarshal_nonNil hu
    obtain ⟨d', resp, hh⟩ := C31_no_request_crashes C t0 sk vk size r₁ r₂ ops hlt d log h rnd req nn
    exact ⟨d', some resp, by simp [hh]⟩

/-- C31 for the sample history: a monitoring request is answered -/
example : ∃ d log, dirAfter Crypto.toy 5 [1] [2] 10 [3] [4] sampleDir = some (d, log) ∧
    ∃ d' resp, d.handleRequests Crypto.toy none ⟨3, .monitoring ⟨[0x61], 0, 9⟩⟩ = some (d', resp) := by
  obtain ⟨d, log, h⟩ := sampleDir_runs
  exact ⟨d, log, h, C31_no_request_crashes Crypto.toy 5 [1] [2] 10 [3] [4] sampleDir (by decide) d log h none _ (by simp [NonNil])⟩

/-! ### C46 -/

/-- C46. The permission map made by `NewConiksServer` for addresses with different pointers: on a configured address exactly the
lookups, monitoring and, if the configuration says so, registration are enabled; on any other address nothing. -/
theorem C46_permissions (addrs : List Address) (hd : (addrs.map Address.ptr).Nodup) (p : Nat) (t : Int) :
    permsMap addrs p t = true ↔ ∃ a, a ∈ addrs ∧ a.ptr = p ∧ (t = 1 ∨ t = 2 ∨ t = 3 ∨ (t = 0 ∧ a.allowRegistration = true)) := by
  have one : ∀ a : Address, permsOf a t = true ↔ (t = 1 ∨ t = 2 ∨ t = 3 ∨ (t = 0 ∧ a.allowRegistration = true)) := by
    intro a
    unfold permsOf KeyLookupType KeyLookupInEpochType MonitoringType RegistrationType
    by_cases h1 : t = 1
    · simp [h1]
    by_cases h2 : t = 2
    · simp [h2]
    by_cases h3 : t = 3
    · simp [h3]
    by_cases h0 : t = 0
    · simp [h0]
    simp [h0, h1, h2, h3]
  induction addrs with
  | nil => simp [permsMap]
  | cons a as ih =>
    rw [List.map_cons, List.nodup_cons] at hd
    simp only [permsMap]
    by_cases hany : as.any (fun b => b.ptr == p) = true
    · rw [if_pos hany]
      refine (ih hd.2).trans ?_
      obtain ⟨b, hb, e⟩ := List.any_eq_true.mp hany
      have e : b.ptr = p := by simpa using e
      have hne : a.ptr ≠ p := fun h => hd.1 (by rw [h, ← e]; exact List.mem_map_of_mem hb)
      constructor
      · rintro ⟨x, hx, h⟩; exact ⟨x, List.mem_cons_of_mem _ hx, h⟩
      · rintro ⟨x, hx, h⟩
        rcases List.mem_cons.mp hx with rfl | hx
        · exact absurd h.1 hne
        · exact ⟨x, hx, h⟩
    · rw [if_neg hany]
      have hno : ∀ b, b ∈ as → b.ptr ≠ p := by
        intro b hb e
        exact hany (List.any_eq_true.mpr ⟨b, hb, by simpa using e⟩)
      by_cases hp : a.ptr = p
      · rw [if_pos hp]
        refine (one a).trans ?_
        constructor
        · intro h; exact ⟨a, List.mem_cons_self, hp, h⟩
        · rintro ⟨x, hx, h, g⟩
          rcases List.mem_cons.mp hx with rfl | hx
          · exact g
          · exact absurd h (hno x hx)
      · rw [if_neg hp]
        constructor
        · intro h; cases h
        · rintro ⟨x, hx, h, _⟩
          rcases List.mem_cons.mp hx with rfl | hx
          · exact absurd h hp
          · exact absurd h (hno x hx)

/-- C46. A request of a type that is not enabled is answered with `ErrMalformedMessage` and the directory stays as it is;
the same for bytes that are not a request. -/
theorem C46_refused (C : Crypto) (J : Json) (perms : Nat → Int → Bool) (rnd : Option Bytes) (d : Directory) (addr : Nat) (c : Conn)
    (buf : Bytes) (hr : c.read = some buf)
    (h : ∀ req, unmarshalRequest J buf = some req → perms addr req.type = false) :
    acceptClient C J perms rnd d addr c = some (d, some ⟨ErrMalformedMessage, .none⟩) := by
  unfold acceptClient screen
  cases hu : unmarshalRequest J buf with
  | none => simp [hr, hu, malformedClientMsg, newErrorResponse]
  | some req => simp [hr, hu, checkRequestType, h req hu, malformedClientMsg, newErrorResponse]

/-- C46. A request of an enabled type gets the answer of `HandleRequests` on it. -/
theorem C46_permitted (C : Crypto) (J : Json) (perms : Nat → Int → Bool) (rnd : Option Bytes) (d : Directory) (addr : Nat) (c : Conn)
    (buf : Bytes) (hr : c.read = some buf) (req : Request) (hu : unmarshalRequest J buf = some req)
    (h : perms addr req.type = true) :
    acceptClient C J perms rnd d addr c = (d.handleRequests C rnd req).map fun x => (x.1, some x.2) := by
  unfold acceptClient screen
  simp [hr, hu, checkRequestType, h]

/-- C46. A connection can change the directory only on an address with registration enabled, by a registration request. -/
theorem C46_writes (C : Crypto) (J : Json) (addrs : List Address) (hd : (addrs.map Address.ptr).Nodup) (rnd : Option Bytes)
    (d d' : Directory) (p : Nat) (c : Conn) (resp : Option Response)
    (h : acceptClient C J (permsMap addrs) rnd d p c = some (d', resp)) (hne : d' ≠ d) :
    (∃ a, a ∈ addrs ∧ a.ptr = p ∧ a.allowRegistration = true) ∧
    ∃ buf r, c.read = some buf ∧ unmarshalRequest J buf = some ⟨0, .registration r⟩ := by
  unfold acceptClient at h
  cases hs : screen J (permsMap addrs) p c with
  | inr r => rw [hs] at h; cases h; exact absurd rfl hne
  | inl req =>
    rw [hs] at h
    obtain ⟨x, hx, e⟩ := Option.map_eq_some_iff.mp h
    have hx1 : x.1 = d' := congrArg Prod.fst e
    have hreg : req.type = 0 ∧ ∃ m, req.payload = .registration m := by
      by_cases h0 : req.type = 0
      · refine ⟨h0, ?_⟩
        apply Classical.byContradiction
        intro hno
        exact hne (hx1 ▸ handle_same_dir (r := x.2) hx (Or.inr fun m hm => hno ⟨m, hm⟩))
      · exact absurd (hx1 ▸ handle_same_dir (r := x.2) hx (Or.inl h0)) hne
    obtain ⟨h0, m, hm⟩ := hreg
    unfold screen at hs
    cases hr : c.read with
    | none => rw [hr] at hs; cases hs
    | some buf =>
      rw [hr] at hs
      cases hu : unmarshalRequest J buf with
      | none => simp only [hu] at hs; cases hs
      | some q =>
        simp only [hu] at hs
        cases hc : checkRequestType (permsMap addrs) p q.type with
        | some e => rw [hc] at hs; cases hs
        | none =>
          rw [hc] at hs
          cases hs
          have hp : permsMap addrs p req.type = true := by
            unfold checkRequestType at hc
            cases hb : permsMap addrs p req.type with
            | true => rfl
            | false => simp [hb] at hc
          obtain ⟨a, ha, hap, ht⟩ := (C46_permissions addrs hd p req.type).mp hp
          refine ⟨⟨a, ha, hap, ?_⟩, buf, m, rfl, ?_⟩
          · rcases ht with ht | ht | ht | ht
            · omega
            · omega
            · omega
            · exact ht.2
          · rw [hu]; obtain ⟨t, pl⟩ := req; simp only at h0 hm; rw [h0, hm]

/-- two addresses, the second read-only: a registration sent there is refused, sent to the first it is performed -/
example (d : Directory) :
    acceptClient Crypto.toy toyJson (permsMap [⟨7, true⟩, ⟨8, false⟩]) (some [1]) d 8 ⟨[0, 0x61, 5], false⟩ =
      some (d, some ⟨ErrMalformedMessage, .none⟩) ∧
    acceptClient Crypto.toy toyJson (permsMap [⟨7, true⟩, ⟨8, false⟩]) (some [1]) d 7 ⟨[0, 0x61, 5], false⟩ =
      ((d.handleRequests Crypto.toy (some [1]) ⟨0, .registration ⟨[0x61], [5]⟩⟩).map fun x => (x.1, some x.2)) := by
  refine ⟨C46_refused _ _ _ _ _ _ _ [0, 0x61, 5] (by decide) ?_, C46_permitted _ _ _ _ _ _ _ [0, 0x61, 5] (by decide) _ (by decide) (by decide)⟩
  intro req hr
  have : req = ⟨0, .registration ⟨[0x61], [5]⟩⟩ := by
    have e : unmarshalRequest toyJson [0, 0x61, 5] = some ⟨0, .registration ⟨[0x61], [5]⟩⟩ := by decide
    rw [e] at hr; cases hr; rfl
  subst this; decide

/-- C46. The pointers must differ: two configured addresses that share one `ServerAddress` get the permissions of the last. -/
theorem C46_shared_pointer_counterexample : permsMap [⟨7, false⟩, ⟨7, true⟩] 7 0 = true ∧ permsMap [⟨7, true⟩, ⟨7, false⟩] 7 0 = false := by
  decide

/-! ### C45 -/

/-- C45. Any number of goroutines run the critical sections `jobs` (requests, epoch updates, reloads) on a directory that has been
used in any way (`ops0`). Each section's code `bodies i` may be interrupted at any point (its decomposition into steps is
arbitrary), the code of lookups and monitoring does not write, and every schedule `es` the lock allows is considered. Take the
finished goroutines in the order in which they gave back the lock. Then
(1) each finished at most once;
(2) the operations of their sections, in that order, are a sequential history of the directory, and whenever no writer is inside,
    the directory is the one after that history;
(3) the answer of the `k`-th is the answer it gets from the directory after the first `k - 1`, so nobody sees a half-done update,
    and no section panics. -/
theorem C45_linearizable (C : Crypto) (t0 : UInt64) (sk vk : Bytes) (size : Nat) (r₁ r₂ : Bytes) (ops0 : List DirOp)
    (d0 : Directory) (log0 : List STR) (h0 : dirAfter C t0 sk vk size r₁ r₂ ops0 = some (d0, log0))
    (jobs : Nat → Job) (bodies : Nat → Prog Directory (Go (Option Response)))
    (hsane : ∀ i, Job.Sane (jobs i))
    (himp : ∀ i, Implements (bodies i) (fun d => (jobs i).apply C d))
    (hro : ∀ i rnd req, jobs i = .request rnd req → (req.type = 1 ∨ req.type = 2 ∨ req.type = 3) → (bodies i).ReadOnly)
    (es : List LockEv) (s : Sys Directory (Go (Option Response)))
    (hexec : (Sys.initial d0).execAll (serverTask jobs bodies) es = .ok s)
    (hlt : dirUpdates ops0 + ((finished es).countP fun i => jobs i = .epochUpdate) < 2 ^ 64) :
    (finished es).Nodup ∧ (∀ i, (∃ r, s.phase i = .done r) ↔ i ∈ finished es) ∧
    (∃ d log, dirAfter C t0 sk vk size r₁ r₂ (ops0 ++ (finished es).flatMap fun i => Job.ops (jobs i)) = some (d, log) ∧
      (s.lock.writer = false → s.mem = d)) ∧
    ∀ k i, (finished es)[k]? = some i → ∃ dk logk dk' r,
      dirAfter C t0 sk vk size r₁ r₂ (ops0 ++ ((finished es).take k).flatMap fun i => Job.ops (jobs i)) = some (dk, logk) ∧
      (jobs i).apply C dk = some (dk', r) ∧ s.phase i = .done (some r) := by
  obtain ⟨act, inv⟩ := execAll_inv (server_disciplined hro) d0 es s hexec
  obtain ⟨log, h1, h2⟩ := seq_history C t0 sk vk size r₁ r₂ ops0 d0 log0 h0 jobs bodies himp (finished es) (fun i _ => hsane i) hlt
  refine ⟨inv.nodup, inv.isDone, ⟨_, log, h1, inv.quiet⟩, ?_⟩
  intro k i hk
  obtain ⟨dk, logk, dk', r, j1, j2, j3⟩ := h2 k i hk
  obtain ⟨r', k1, k2⟩ := inv.results k i hk
  rw [j3] at k1
  cases k1
  exact ⟨dk, logk, dk', r, j1, j2, k2⟩

/-- C45. Mutual exclusion: while a section that holds the write lock is inside, nobody else is. No schedule makes the server give
back a lock it does not hold (a fatal error in Go). And as long as some goroutine is not finished, somebody can move. -/
theorem C45_lock_discipline (jobs : Nat → Job) (bodies : Nat → Prog Directory (Go (Option Response)))
    (hro : ∀ i rnd req, jobs i = .request rnd req → (req.type = 1 ∨ req.type = 2 ∨ req.type = 3) → (bodies i).ReadOnly)
    (d0 : Directory) (es : List LockEv) :
    (∀ s, (Sys.initial d0).execAll (serverTask jobs bodies) es = .ok s →
      (∀ i j p q, s.phase i = .running p → s.phase j = .running q → i ≠ j →
        (∃ rnd req, jobs i = .request rnd req ∧ (req.type = 1 ∨ req.type = 2 ∨ req.type = 3))) ∧
      (∀ i, (∀ r, s.phase i ≠ .done r) → ∃ e s', s.exec (serverTask jobs bodies) e = .ok s')) ∧
    (Sys.initial (ρ := Go (Option Response)) d0).execAll (serverTask jobs bodies) es ≠ .fatal := by
  have D := server_disciplined hro
  refine ⟨fun s hs => ?_, ?_⟩
  · obtain ⟨act, inv⟩ := execAll_inv D d0 es s hs
    refine ⟨fun i j p q hi hj hij => ?_, fun i hi => inv_progress D inv i hi⟩
    have hia := (inv.isRunning i).mp ⟨p, hi⟩
    have hja := (inv.isRunning j).mp ⟨q, hj⟩
    have hr : (serverTask jobs bodies i).acquire = .read := by
      rcases mode_cases (serverTask jobs bodies i).acquire with g | g
      · exact g
      · rw [inv.alone i hia g] at hja
        exact absurd (List.mem_singleton.mp hja).symm hij
    simp only [serverTask] at hr
    cases hjob : jobs i with
    | request rnd req =>
      rw [hjob] at hr
      simp only [Job.acquire, lockMode] at hr
      split at hr
      · exact ⟨rnd, req, rfl, by assumption⟩
      · cases hr
    | epochUpdate => rw [hjob] at hr; cases hr
    | reload f => rw [hjob] at hr; cases hr
  · intro h
    rcases inv_execAll D es (inv_initial (serverTask jobs bodies) d0) with h' | ⟨s', act', h', _⟩ <;> rw [h] at h' <;> cases h'

/-- C45 for the code of the sections as modelled line by line (`Job.code`: registration in three steps, update in two): no
hypothesis on the code is left. -/
theorem C45_code (C : Crypto) (t0 : UInt64) (sk vk : Bytes) (size : Nat) (r₁ r₂ : Bytes) (ops0 : List DirOp)
    (d0 : Directory) (log0 : List STR) (h0 : dirAfter C t0 sk vk size r₁ r₂ ops0 = some (d0, log0))
    (jobs : Nat → Job) (hsane : ∀ i, Job.Sane (jobs i)) (es : List LockEv) (s : Sys Directory (Go (Option Response)))
    (hexec : (Sys.initial d0).execAll (serverTask jobs fun i => (jobs i).code C) es = .ok s)
    (hlt : dirUpdates ops0 + ((finished es).countP fun i => jobs i = .epochUpdate) < 2 ^ 64) :
    (∃ d log, dirAfter C t0 sk vk size r₁ r₂ (ops0 ++ (finished es).flatMap fun i => Job.ops (jobs i)) = some (d, log) ∧
      (s.lock.writer = false → s.mem = d)) ∧
    ∀ k i, (finished es)[k]? = some i → ∃ dk logk dk' r,
      dirAfter C t0 sk vk size r₁ r₂ (ops0 ++ ((finished es).take k).flatMap fun i => Job.ops (jobs i)) = some (dk, logk) ∧
      (jobs i).apply C dk = some (dk', r) ∧ s.phase i = .done (some r) := by
  have h := C45_linearizable C t0 sk vk size r₁ r₂ ops0 d0 log0 h0 jobs (fun i => (jobs i).code C) hsane
    (fun i => code_implements C (jobs i)) (fun i rnd req e ht => by simp only [e]; exact code_readOnly C rnd req ht) es s hexec hlt
  exact h.2.2

/-- goroutine 0 looks up alice, 1 registers dave, 2 updates, all others reload an unreadable configuration -/
def sampleJobs (i : Nat) : Job :=
  if i = 0 then .request none ⟨1, .keyLookup ⟨[0x61]⟩⟩
  else if i = 1 then .request (some [7]) ⟨0, .registration ⟨[0x64], [8]⟩⟩
  else if i = 2 then .epochUpdate
  else .reload none

/-- an update is begun, interrupted, finished, and then a lookup runs: allowed by the lock, and the theorem applies -/
example : ∃ d0 log0 s, dirAfter Crypto.toy 5 [1] [2] 10 [3] [4] sampleDir = some (d0, log0) ∧
    (Sys.initial d0).execAll (serverTask sampleJobs fun i => (sampleJobs i).code Crypto.toy)
      [.lock 2, .step 2, .step 2, .unlock 2, .lock 0, .step 0, .unlock 0, .lock 5, .step 5] = .ok s ∧
    (∀ i, Job.Sane (sampleJobs i)) := by
  obtain ⟨d, log, h⟩ := sampleDir_runs
  refine ⟨d, log, _, h, rfl, ?_⟩
  intro i
  unfold sampleJobs
  repeat' split
  all_goals simp [Job.Sane, NonNil]

/-- while the update is inside, the lookup cannot enter -/
example (d0 : Directory) : (Sys.initial d0).execAll (serverTask sampleJobs fun i => (sampleJobs i).code Crypto.toy)
    [.lock 2, .step 2, .lock 0] = .blocked := rfl

end Coniks.Props
