import Verif.Model.Lock
import Verif.Model.DirectoryOps
/-
The pointers of `protocol/directory/directory.go` and `merkletree/pad.go`: policies, signed tree roots, temporary bindings and the key
slices of registration requests are cells of a memory; the directory and its answers hold addresses. An answer is read (marshalled)
later, possibly while the directory goes on working. The trees are values here: that a snapshot shares no node with the working tree is
C17 (Model/Heap.lean). Other byte slices are values: no function of these packages writes to an element of one.
-/
namespace Coniks

/-- merkletree/str.go:23-31 `SignedTreeRoot` in memory: `Ad` holds a `*Policies`. -/
structure RSTR where
  core : STRCore
  tree : MerkleTree
  ad : Nat
deriving DecidableEq, Inhabited

/-- protocol/tb.go:17-21 `TemporaryBinding` in memory: `Value` is the slice of the request, not a copy of it. -/
structure RTB where
  index : Bytes
  value : Nat
  signature : Bytes
deriving DecidableEq, Inhabited

/-- The memory: the cell at address `a` is the `a`-th of its kind; allocation appends a cell. -/
structure Mem where
  pols : List Policies
  strs : List RSTR
  tbs : List RTB
  bufs : List Bytes
deriving DecidableEq, Inhabited

/-- merkletree/pad.go:23-31 `PAD`, with pointers to its STRs and associated data. -/
structure RPAD where
  signKey : Bytes
  vrfKey : Bytes
  tree : MerkleTree
  snapshots : UInt64 → Option Nat
  loadedEpochs : List UInt64
  cap : Nat
  latest : Nat
  ad : Nat

/-- protocol/directory/directory.go:26-32 `ConiksDirectory`, with the memory its pointers point into. -/
structure RDir where
  mem : Mem
  pad : RPAD
  useTBs : Bool
  tbs : Bytes → Option Nat
  policies : Nat

/-- protocol/str.go:7-10 `DirSTR`: two pointers. -/
structure RDirSTR where
  str : Nat
  policies : Nat
deriving DecidableEq, Inhabited

/-- protocol/message.go:128-156: an answer of the directory, with pointers to STRs, policies and the TB. The authentication paths are
made for the answer. -/
inductive RBody where
  | none
  | proof (ap : List AuthPath) (str : List RDirSTR) (tb : Option Nat)
  | history (str : List RDirSTR)
deriving DecidableEq, Inhabited

/-- protocol/message.go:128-131 `Response` with pointers. -/
structure RResponse where
  error : ErrorCode
  body : RBody
deriving DecidableEq, Inhabited

/-! ### merkletree/pad.go -/

/-- merkletree/str.go:36-52 `NewSTR`: allocates the STR; dereferences the associated data to sign them. -/
def Mem.newSTR (C : Crypto) (m : Mem) (key : Bytes) (ad : Nat) (t : MerkleTree) (epoch : UInt64) (prevHash : Bytes) : Go (Mem × Nat) :=
  match m.pols[ad]? with
  | none => none
  | some pol =>
    let s := Coniks.newSTR C key pol t epoch prevHash
    some ({ m with strs := m.strs ++ [{ core := s.core, tree := s.tree, ad := ad }] }, m.strs.length)

/-- merkletree/pad.go:73-82 `updateInternal`, with `signTreeRoot` (lines 55-71). -/
def RPAD.updateInternal (C : Crypto) (m : Mem) (p : RPAD) (ad : Option Nat) (epoch : UInt64) (prevHash : Bytes) : Go (Mem × RPAD) :=
  let tree := p.tree.recomputeHash C
  match m.newSTR C p.signKey p.ad tree.clone epoch prevHash with
  | none => none
  | some (m', a) =>
    some (m', { p with
      tree := tree
      latest := a
      snapshots := fun e => if e = epoch then some a else p.snapshots e
      loadedEpochs := p.loadedEpochs ++ [epoch]
      cap := appendCap p.loadedEpochs.length p.cap
      ad := ad.getD p.ad })

/-- merkletree/pad.go:92-98: eviction deletes pointers from the map, not what they point to. -/
def RPAD.evict (p : RPAD) : RPAD :=
  if p.loadedEpochs.length = p.cap then
    let n := p.cap / 2
    { p with
      snapshots := fun e => if e ∈ p.loadedEpochs.take n then none else p.snapshots e
      loadedEpochs := p.loadedEpochs.drop n }
  else p

/-- merkletree/pad.go:90-100 `Update`; lines 64-65 read the signature of the latest STR. -/
def RPAD.update (C : Crypto) (m : Mem) (p : RPAD) (ad : Option Nat) : Go (Mem × RPAD) :=
  match m.strs[p.latest]? with
  | none => none
  | some s => p.evict.updateInternal C m ad (s.core.epoch + 1) (C.digest [s.core.signature])

/-- merkletree/pad.go:36-53 `NewPAD`. -/
def Mem.newPAD (C : Crypto) (m : Mem) (ad : Nat) (signKey vrfKey : Bytes) (len : Nat) (rnd₁ rnd₂ : Option Bytes) :
    Go (Option (Mem × RPAD)) :=
  match newMerkleTree C rnd₁ with
  | none => some none
  | some tree =>
    match C.makeRand rnd₂ with
    | none => none
    | some prevHash =>
      (RPAD.updateInternal C m
        { signKey := signKey, vrfKey := vrfKey, tree := tree, snapshots := fun _ => none, loadedEpochs := [], cap := len,
          latest := 0, ad := ad } none 0 prevHash).map some

/-- merkletree/pad.go:138-143 `GetSTR`: a pointer, nil if the STR was evicted. -/
def RPAD.getSTR (m : Mem) (p : RPAD) (epoch : UInt64) : Go (Option Nat) :=
  match m.strs[p.latest]? with
  | none => none
  | some s => some (if epoch ≥ s.core.epoch then some p.latest else p.snapshots epoch)

/-- merkletree/pad.go:122-133 `LookupInEpoch`. -/
def RPAD.lookupInEpoch (C : Crypto) (m : Mem) (p : RPAD) (key : Bytes) (epoch : UInt64) : Go (Option AuthPath) :=
  match p.getSTR m epoch with
  | none => none
  | some none => some none
  | some (some a) =>
    match m.strs[a]? with
    | none => none
    | some str =>
      let (index, proof) := C.vrfProve p.vrfKey key
      (str.tree.get index).map fun ap => some { ap with vrfProof := proof }

/-- merkletree/pad.go:113-115 `Lookup`. -/
def RPAD.lookup (C : Crypto) (m : Mem) (p : RPAD) (key : Bytes) : Go (Option AuthPath) :=
  match m.strs[p.latest]? with
  | none => none
  | some s => p.lookupInEpoch C m key s.core.epoch

/-- merkletree/pad.go:106-108 `Set`; line 135 of merkletree.go copies the value. -/
def RPAD.set (C : Crypto) (p : RPAD) (rnd : Option Bytes) (key value : Bytes) : Go (RPAD × Bool) :=
  (p.tree.set C rnd (C.vrfProve p.vrfKey key).1 key value).map fun (t, ok) => ({ p with tree := t }, ok)

/-! ### protocol/directory/directory.go -/

/-- protocol/directory/directory.go:42-65 `New`: the PAD is given the pointer the directory keeps. -/
def newRDir (C : Crypto) (m : Mem) (epDeadline : UInt64) (vrfKey signKey : Bytes) (dirSize : Nat) (useTBs : Bool)
    (rnd₁ rnd₂ : Option Bytes) : Go RDir :=
  if useTBs then
    let pol := m.pols.length
    let m := { m with pols := m.pols ++ [newPolicies epDeadline (C.vrfPub vrfKey)] }
    match m.newPAD C pol signKey vrfKey dirSize rnd₁ rnd₂ with
    | some (some (m, pad)) => some { mem := m, pad := pad, useTBs := useTBs, tbs := fun _ => none, policies := pol }
    | _ => none
  else none

/-- protocol/directory/directory.go:70-76 `Update`: hands the PAD the pointer `d.policies`; the TBs are deleted from the map. -/
def RDir.update (C : Crypto) (d : RDir) : Go RDir :=
  match d.pad.update C d.mem (some d.policies) with
  | none => none
  | some (m, p) => some { d with mem := m, pad := p, tbs := fun _ => none }

/-- protocol/directory/directory.go:80-82 `SetPolicies`: allocates new policies. -/
def RDir.setPolicies (d : RDir) (epDeadline : UInt64) : Go RDir :=
  match d.mem.pols[d.policies]? with
  | none => none
  | some p =>
    some { d with
      mem := { d.mem with pols := d.mem.pols ++ [newPolicies epDeadline p.vrfPublicKey] }
      policies := d.mem.pols.length }

/-- protocol/str.go:13-18 `NewDirSTR`: two pointers; a nil STR panics. -/
def Mem.newDirSTR (m : Mem) : Option Nat → Go RDirSTR
  | none => none
  | some a =>
    match m.strs[a]? with
    | none => none
    | some s => some { str := a, policies := s.ad }

/-- protocol/directory/directory.go:91-93 `LatestSTR`. -/
def RDir.latestSTR (d : RDir) : Go RDirSTR := d.mem.newDirSTR (some d.pad.latest)

/-- protocol/directory/directory.go:98-105 `NewTB`: allocates the TB, whose value is the slice it was given. -/
def RDir.newTB (C : Crypto) (d : RDir) (name : Bytes) (key : Nat) : Go (Mem × Nat) :=
  match d.mem.strs[d.pad.latest]?, d.mem.bufs[key]? with
  | some s, some k =>
    let index := (C.vrfProve d.pad.vrfKey name).1
    some ({ d.mem with tbs := d.mem.tbs ++ [{ index := index, value := key, signature := C.sign d.pad.signKey ([s.core.signature, index, k].flatten) }] },
      d.mem.tbs.length)
  | _, _ => none

/-- protocol/message.go:178-210 `NewRegistrationProof`, `NewKeyLookupProof`. -/
def rSingleProof (ap : AuthPath) (str : Go RDirSTR) (tb : Option Nat) (e : ErrorCode) : Go RResponse :=
  str.map fun s => { error := e, body := .proof [ap] [s] tb }

/-- protocol/message.go:161-163 `NewErrorResponse`. -/
def rErrorResponse (e : ErrorCode) : RResponse := { error := e, body := .none }

/-- protocol/directory/directory.go:129-164 `Register`; `key` is the address of the slice `req.Key`. -/
def RDir.register (C : Crypto) (d : RDir) (rnd : Option Bytes) (username : Bytes) (key : Nat) : Go (RDir × RResponse) :=
  match d.mem.bufs[key]? with
  | none => none
  | some k =>
    if username.length = 0 ∨ k.length = 0 then some (d, rErrorResponse ErrMalformedMessage)
    else
      match d.pad.lookup C d.mem username with
      | none => none
      | some none => some (d, rErrorResponse ErrDirectory)
      | some (some ap) =>
        match ap.found with
        | none => none
        | some true => (rSingleProof ap d.latestSTR none ReqNameExisted).map fun r => (d, r)
        | some false =>
          match (if d.useTBs then d.tbs username else none) with
          | some tb => (rSingleProof ap d.latestSTR (some tb) ReqNameExisted).map fun r => (d, r)
          | none =>
            match (if d.useTBs then (d.newTB C username key).map fun x => (x.1, some x.2) else some (d.mem, none)) with
            | none => none
            | some (m, tb) =>
              match d.pad.set C rnd username k with
              | none => none
              | some (pad', false) => some ({ d with mem := m, pad := pad' }, rErrorResponse ErrDirectory)
              | some (pad', true) =>
                let tbs' : Bytes → Option Nat := match tb with
                  | some t => fun n => if n = username then some t else d.tbs n
                  | none => d.tbs
                let d' : RDir := { d with mem := m, pad := pad', tbs := tbs' }
                (rSingleProof ap d'.latestSTR tb ReqSuccess).map fun r => (d', r)

/-- protocol/directory/directory.go:187-209 `KeyLookup`. -/
def RDir.keyLookup (C : Crypto) (d : RDir) (req : KeyLookupRequest) : Go RResponse :=
  if req.username.length = 0 then some (rErrorResponse ErrMalformedMessage)
  else
    match d.pad.lookup C d.mem req.username with
    | none => none
    | some none => some (rErrorResponse ErrDirectory)
    | some (some ap) =>
      match ap.found with
      | none => none
      | some true => rSingleProof ap d.latestSTR none ReqSuccess
      | some false =>
        match (if d.useTBs then d.tbs req.username else none) with
        | some tb => rSingleProof ap d.latestSTR (some tb) ReqSuccess
        | none => rSingleProof ap d.latestSTR none ReqNameNotFound

/-- protocol/directory/directory.go:251-254, 340-343: the loop collecting STRs. -/
def RDir.collectSTRs (d : RDir) : List UInt64 → Go (List RDirSTR)
  | [] => some []
  | ep :: eps =>
    match d.pad.getSTR d.mem ep with
    | none => none
    | some a =>
      match d.mem.newDirSTR a with
      | none => none
      | some s => (d.collectSTRs eps).map fun ss => s :: ss

/-- The epoch of the latest STR (`d.LatestSTR().Epoch`, directory.go:239, 285, 327). -/
def RDir.latestEpoch (d : RDir) : Go UInt64 := (d.mem.strs[d.pad.latest]?).map fun s => s.core.epoch

/-- protocol/directory/directory.go:236-261 `KeyLookupInEpoch`. -/
def RDir.keyLookupInEpoch (C : Crypto) (d : RDir) (req : KeyLookupInEpochRequest) : Go RResponse :=
  match d.latestEpoch with
  | none => none
  | some latest =>
    if req.username.length = 0 ∨ req.epoch > latest then some (rErrorResponse ErrMalformedMessage)
    else
      match d.pad.lookupInEpoch C d.mem req.username req.epoch with
      | none => none
      | some none => some (rErrorResponse ErrDirectory)
      | some (some ap) =>
        match d.collectSTRs (epochRange req.epoch latest) with
        | none => none
        | some strs =>
          match ap.found with
          | none => none
          | some true => some { error := ReqSuccess, body := .proof [ap] strs none }
          | some false => some { error := ReqNameNotFound, body := .proof [ap] strs none }

/-- protocol/directory/directory.go:297-305: the loop of `Monitor`. -/
def RDir.monitorLoop (C : Crypto) (d : RDir) (username : Bytes) : List UInt64 → Go (Option (List AuthPath × List RDirSTR))
  | [] => some (some ([], []))
  | ep :: eps =>
    match d.pad.lookupInEpoch C d.mem username ep with
    | none => none
    | some none => some none
    | some (some ap) =>
      match d.pad.getSTR d.mem ep with
      | none => none
      | some a =>
        match d.mem.newDirSTR a with
        | none => none
        | some s =>
          match d.monitorLoop C username eps with
          | none => none
          | some none => some none
          | some (some (aps, ss)) => some (some (ap :: aps, s :: ss))

/-- protocol/directory/directory.go:281-308 `Monitor`. -/
def RDir.monitor (C : Crypto) (d : RDir) (req : MonitoringRequest) : Go RResponse :=
  match d.latestEpoch with
  | none => none
  | some latest =>
    if req.username.length = 0 ∨ req.startEpoch > latest ∨ req.startEpoch > req.endEpoch then
      some (rErrorResponse ErrMalformedMessage)
    else
      let endEp := if req.endEpoch > latest then latest else req.endEpoch
      match d.monitorLoop C req.username (epochRange req.startEpoch endEp) with
      | none => none
      | some none => some (rErrorResponse ErrDirectory)
      | some (some (aps, ss)) => some { error := ReqSuccess, body := .proof aps ss none }

/-- protocol/directory/directory.go:326-345 `GetSTRHistory`. -/
def RDir.getSTRHistory (d : RDir) (req : STRHistoryRequest) : Go RResponse :=
  match d.latestEpoch with
  | none => none
  | some latest =>
    if req.startEpoch > latest ∨ req.endEpoch < req.startEpoch then some (rErrorResponse ErrMalformedMessage)
    else
      let endEp := if req.endEpoch > latest then latest else req.endEpoch
      (d.collectSTRs (epochRange req.startEpoch endEp)).map fun ss => { error := ReqSuccess, body := .history ss }

/-! ### Reading an answer -/

/-- Following the pointers of a `DirSTR` (what `json.Marshal` does, application/encoding.go:51-53). -/
def Mem.readSTR (m : Mem) (s : RDirSTR) : Go DirSTR :=
  match m.strs[s.str]?, m.pols[s.policies]? with
  | some x, some p => some { core := x.core, policies := some p }
  | _, _ => none

/-- Following the pointer to a TB and the slice in it. -/
def Mem.readTB (m : Mem) (a : Nat) : Go TB :=
  match m.tbs[a]? with
  | none => none
  | some t => (m.bufs[t.value]?).map fun v => { index := t.index, value := v, signature := t.signature }

/-- Following a list of pointers. -/
def Mem.readSTRs (m : Mem) : List RDirSTR → Go (List DirSTR)
  | [] => some []
  | s :: ss =>
    match m.readSTR s, m.readSTRs ss with
    | some x, some xs => some (x :: xs)
    | _, _ => none

/-- application/encoding.go:51-53: an answer as `json.Marshal` finds it in the memory `m` (`none`: a pointer to nowhere). -/
def RResponse.read (m : Mem) (r : RResponse) : Go Response :=
  match r.body with
  | .none => some { error := r.error, resp := .none }
  | .history ss => (m.readSTRs ss).map fun xs => { error := r.error, resp := .history (xs.map some) }
  | .proof aps ss none => (m.readSTRs ss).map fun xs => { error := r.error, resp := .proof { ap := aps.map some, str := xs.map some, tb := none } }
  | .proof aps ss (some a) =>
    match m.readSTRs ss, m.readTB a with
    | some xs, some t => some { error := r.error, resp := .proof { ap := aps.map some, str := xs.map some, tb := some t } }
    | _, _ => none

/-! ### Histories -/

/-- What can happen: a call on the directory, or the program that uses it makes a slice (`buffer`) or writes to one (`write`). -/
inductive ROp where
  | buffer (b : Bytes)
  | write (a : Nat) (b : Bytes)
  | register (rnd : Option Bytes) (username : Bytes) (key : Nat)
  | keyLookup (req : KeyLookupRequest)
  | keyLookupInEpoch (req : KeyLookupInEpochRequest)
  | monitor (req : MonitoringRequest)
  | getSTRHistory (req : STRHistoryRequest)
  | update
  | setPolicies (epDeadline : UInt64)
deriving DecidableEq

/-- directory.go:70-345 on pointers: the call and its answer. -/
def RDir.step (C : Crypto) (d : RDir) : ROp → Go (RDir × Option RResponse)
  | .buffer b => some ({ d with mem := { d.mem with bufs := d.mem.bufs ++ [b] } }, none)
  | .write a b => some ({ d with mem := { d.mem with bufs := d.mem.bufs.set a b } }, none)
  | .register rnd n k => (d.register C rnd n k).map fun x => (x.1, some x.2)
  | .keyLookup req => (d.keyLookup C req).map fun r => (d, some r)
  | .keyLookupInEpoch req => (d.keyLookupInEpoch C req).map fun r => (d, some r)
  | .monitor req => (d.monitor C req).map fun r => (d, some r)
  | .getSTRHistory req => (d.getSTRHistory req).map fun r => (d, some r)
  | .update => (d.update C).map fun d' => (d', none)
  | .setPolicies t => (d.setPolicies t).map fun d' => (d', none)

/-- A history: the directory afterwards and the answers in order. -/
def RDir.run (C : Crypto) (d : RDir) : List ROp → Go (RDir × List RResponse)
  | [] => some (d, [])
  | op :: ops => (d.step C op).bind fun x => (x.1.run C ops).map fun y => (y.1, x.2.toList ++ y.2)

/-! ### The critical sections of the server -/

/-- A slice made by the JSON decoder for the key of a request (application/encoding.go:35-44), before the lock is taken; nobody else has
its address, so it may as well be made at the beginning of the section. -/
def RDir.decodeKey (d : RDir) (key : Bytes) : RDir := { d with mem := { d.mem with bufs := d.mem.bufs ++ [key] } }

/-- application/server/server.go:80-101 `HandleRequests` on pointers. -/
def RDir.handleRequests (C : Crypto) (rnd : Option Bytes) (d : RDir) (req : Request) : Go (RDir × RResponse) :=
  if req.type = RegistrationType then
    match req.payload with
    | .registration msg => (d.decodeKey msg.key).register C rnd msg.username d.mem.bufs.length
    | .nilRegistration => none
    | _ => some (d, rErrorResponse ErrMalformedMessage)
  else if req.type = KeyLookupType then
    match req.payload with
    | .keyLookup msg => (d.keyLookup C msg).map fun r => (d, r)
    | .nilKeyLookup => none
    | _ => some (d, rErrorResponse ErrMalformedMessage)
  else if req.type = KeyLookupInEpochType then
    match req.payload with
    | .keyLookupInEpoch msg => (d.keyLookupInEpoch C msg).map fun r => (d, r)
    | .nilKeyLookupInEpoch => none
    | _ => some (d, rErrorResponse ErrMalformedMessage)
  else if req.type = MonitoringType then
    match req.payload with
    | .monitoring msg => (d.monitor C msg).map fun r => (d, r)
    | .nilMonitoring => none
    | _ => some (d, rErrorResponse ErrMalformedMessage)
  else some (d, rErrorResponse ErrMalformedMessage)

/-- The critical sections (serverbase.go:217-232, 271-274, 286-288) on pointers. -/
def Job.rapply (C : Crypto) (d : RDir) : Job → Go (RDir × Option RResponse)
  | .request rnd req => (d.handleRequests C rnd req).map fun x => (x.1, some x.2)
  | .epochUpdate => (d.update C).map fun d' => (d', none)
  | .reload file =>
    match loadConfig file with
    | none => none
    | some none => some (d, none)
    | some (some t) => (d.setPolicies t).map fun d' => (d', none)

/-- The goroutines of the server, on pointers; see `serverTask` (serverbase.go:195-250, 265-291). -/
def rTask (jobs : Nat → Job) (bodies : Nat → Prog RDir (Go (Option RResponse))) (i : Nat) : Task RDir (Go (Option RResponse)) :=
  { acquire := (jobs i).acquire, body := bodies i, release := (jobs i).release }

/-- protocol/directory/directory.go:70-76 `Update` in steps: `pad.Update` allocates the STR; the PAD is changed; the TBs are deleted. -/
def rUpdateBody (C : Crypto) : Prog RDir (Go (Option RResponse)) :=
  .act (fun d => match d.pad.update C d.mem (some d.policies) with
    | some (m, _) => { d with mem := m }
    | none => d) fun d =>
  match d.pad.update C d.mem (some d.policies) with
  | none => .ret none
  | some (_, p) =>
    .act (fun d => { d with pad := p }) fun _ =>
    .act (fun d => { d with tbs := fun _ => none }) fun _ => .ret (some none)

/-- protocol/directory/directory.go:148-161, the last steps of `Register`: `pad.Set`, then the TB is stored, then the answer is made. -/
def rRegisterTail (C : Crypto) (rnd : Option Bytes) (username k : Bytes) (ap : AuthPath) (tb : Option Nat) :
    Prog RDir (Go (Option RResponse)) :=
  .act (fun d => match d.pad.set C rnd username k with
    | some (pad', _) => { d with pad := pad' }
    | none => d) fun d =>
  match d.pad.set C rnd username k with
  | none => .ret none
  | some (_, false) => .ret (some (some (rErrorResponse ErrDirectory)))
  | some (_, true) =>
    .act (fun d => match tb with
      | some t => { d with tbs := fun n => if n = username then some t else d.tbs n }
      | none => d) fun d => .ret ((rSingleProof ap d.latestSTR tb ReqSuccess).map some)

/-- protocol/directory/directory.go:129-164 `Register` in steps: everything up to the TB only reads; `NewTB` allocates; then
`rRegisterTail`. -/
def rRegisterBody (C : Crypto) (rnd : Option Bytes) (req : RegistrationRequest) : Prog RDir (Go (Option RResponse)) :=
  .act (fun d => d.decodeKey req.key) fun d0 =>
  .act id fun d =>
    match d.mem.bufs[d0.mem.bufs.length]? with
    | none => .ret none
    | some k =>
      if req.username.length = 0 ∨ k.length = 0 then .ret (some (some (rErrorResponse ErrMalformedMessage)))
      else
        match d.pad.lookup C d.mem req.username with
        | none => .ret none
        | some none => .ret (some (some (rErrorResponse ErrDirectory)))
        | some (some ap) =>
          match ap.found with
          | none => .ret none
          | some true => .ret ((rSingleProof ap d.latestSTR none ReqNameExisted).map some)
          | some false =>
            match (if d.useTBs then d.tbs req.username else none) with
            | some tb => .ret ((rSingleProof ap d.latestSTR (some tb) ReqNameExisted).map some)
            | none =>
              if d.useTBs then
                .act (fun d => match d.newTB C req.username d0.mem.bufs.length with
                  | some (m, _) => { d with mem := m }
                  | none => d) fun d =>
                match d.newTB C req.username d0.mem.bufs.length with
                | none => .ret none
                | some (_, t) => rRegisterTail C rnd req.username k ap (some t)
              else rRegisterTail C rnd req.username k ap none

/-- The code of the sections on pointers, in steps. -/
def Job.rcode (C : Crypto) : Job → Prog RDir (Go (Option RResponse))
  | .request rnd ⟨t, p⟩ =>
    if t = RegistrationType then
      match p with
      | .registration req => rRegisterBody C rnd req
      | p => .act id fun d => .ret ((d.handleRequests C rnd ⟨t, p⟩).map fun x => some x.2)
    else .act id fun d => .ret ((d.handleRequests C rnd ⟨t, p⟩).map fun x => some x.2)
  | .epochUpdate => rUpdateBody C
  | .reload file =>
    match loadConfig file with
    | none => .ret none
    | some none => .ret (some none)
    | some (some t) =>
      .act (fun d => (d.setPolicies t).getD d) fun d => .ret ((d.setPolicies t).map fun _ => none)

end Coniks
