import Verif.Proofs.Refs
import Verif.Proofs.EvalDir
/-
C75: answers are made of pointers into the directory's data, and are read later.
-/
namespace Coniks.Props
open Coniks Spec

theorem readAll_of {m : Mem} : ∀ {rs : List RResponse} {vs : List Response}, rs.length = vs.length →
    (∀ (i : Nat) (r : RResponse) (v : Response), rs[i]? = some r → vs[i]? = some v → r.read m = some v) → readAll m rs = some vs := by
  intro rs
  induction rs with
  | nil => intro vs h _; cases vs with
    | nil => rfl
    | cons => simp at h
  | cons r rs ih =>
    intro vs h k
    cases vs with
    | nil => simp at h
    | cons v vs =>
      have h1 := k 0 r v rfl rfl
      have h2 := ih (vs := vs) (by simpa using h) fun i r' v' a b => k (i + 1) r' v' (by simpa using a) (by simpa using b)
      simp only [readAll, h1, h2]

theorem mapTB_id (r : Response) : mapTB (fun t => t) r = r := by
  obtain ⟨e, b⟩ := r
  cases b with
  | proof p => simp [mapTB]
  | _ => rfl

/-- C75. A directory whose policies, tree roots, temporary bindings and key slices are memory shared by pointers is used in any way, and
all its answers are kept. Read at the end (so at any later time, since the history is arbitrary), every answer is the one a directory
without shared memory gives at the time of the call: nothing that was handed out changes afterwards. Nobody writes to a key slice after
passing it to a registration. The two also panic on the same histories. -/
theorem C75_answers (C : Crypto) (t0 : UInt64) (sk vk : Bytes) (size : Nat) (useTBs : Bool) (r₁ r₂ : Option Bytes) (ops : List ROp)
    (hk : KeysExist 0 ops) (hw : NoWrites ops) :
    ((newRDir C emptyMem t0 vk sk size useTBs r₁ r₂).bind fun d => (d.run C ops).bind fun x => readAll x.1.mem x.2) =
      (newDirectory C t0 vk sk size useTBs r₁ r₂).bind fun D => valueAnswers C D (plainCalls [] ops) := by
  have h0 := new_sim (fun t => t) C emptyMem t0 vk sk size useTBs r₁ r₂
  generalize newRDir C emptyMem t0 vk sk size useTBs r₁ r₂ = o at h0 ⊢
  generalize newDirectory C t0 vk sk size useTBs r₁ r₂ = O at h0 ⊢
  cases o with
  | none =>
    cases O with
    | none => rfl
    | some D => exact h0.elim
  | some d =>
    cases O with
    | none => exact h0.elim
    | some D =>
      obtain ⟨R, hb⟩ := h0
      have hb' : d.mem.bufs = [] := hb
      have h1 := run_sim C ops R (fun op ho a b e => (hw op ho a b e).elim) (by rw [hb']; exact hk)
      rw [hb'] at h1
      simp only [Option.bind_some]
      generalize d.run C ops = x at h1 ⊢
      generalize valueAnswers C D (plainCalls [] ops) = y at h1 ⊢
      cases x with
      | none =>
        cases y with
        | none => rfl
        | some y => exact h1.elim
      | some x =>
        cases y with
        | none => exact h1.elim
        | some vs =>
          obtain ⟨d', rs⟩ := x
          obtain ⟨_, hl, hr⟩ := h1
          refine readAll_of hl fun i r v a b => ?_
          obtain ⟨v', k1, k2⟩ := hr i r v a b
          rw [mapTB_id, mapTB_id] at k2
          rw [k1, k2]

theorem readAll_some {f : TB → TB} {m : Mem} : ∀ {rs : List RResponse} {vs : List Response}, rs.length = vs.length →
    (∀ (i : Nat) (r : RResponse) (v : Response), rs[i]? = some r → vs[i]? = some v → RReads f m r v) →
    (readAll m rs).map (List.map (mapTB f)) = some (vs.map (mapTB f)) := by
  intro rs
  induction rs with
  | nil => intro vs h _; cases vs with
    | nil => rfl
    | cons => simp at h
  | cons r rs ih =>
    intro vs h k
    cases vs with
    | nil => simp at h
    | cons v vs =>
      obtain ⟨v', h1, h3⟩ := k 0 r v rfl rfl
      have h2 := ih (vs := vs) (by simpa using h) fun i r' v' a b => k (i + 1) r' v' (by simpa using a) (by simpa using b)
      cases h4 : readAll m rs with
      | none => rw [h4] at h2; cases h2
      | some xs =>
        rw [h4] at h2
        simp only [Option.map_some, Option.some.injEq] at h2
        simp only [readAll, h1, h4, Option.map_some, List.map_cons, h3, h2]

/-- C75. If the program that uses the directory does write to key slices it has passed to registrations, this changes at most the keys
inside temporary bindings: all other parts of all answers, read at the end, are those of a directory without shared memory (whose
registrations get the key the slice had at the time of the call). -/
theorem C75_writes (C : Crypto) (t0 : UInt64) (sk vk : Bytes) (size : Nat) (useTBs : Bool) (r₁ r₂ : Option Bytes) (ops : List ROp)
    (hk : KeysExist 0 ops) :
    ((newRDir C emptyMem t0 vk sk size useTBs r₁ r₂).bind fun d => (d.run C ops).bind fun x => (readAll x.1.mem x.2).map (List.map hideKey)) =
      (newDirectory C t0 vk sk size useTBs r₁ r₂).bind fun D => (valueAnswers C D (plainCalls [] ops)).map (List.map hideKey) := by
  have h0 := new_sim (fun t => { t with value := [] }) C emptyMem t0 vk sk size useTBs r₁ r₂
  generalize newRDir C emptyMem t0 vk sk size useTBs r₁ r₂ = o at h0 ⊢
  generalize newDirectory C t0 vk sk size useTBs r₁ r₂ = O at h0 ⊢
  cases o with
  | none =>
    cases O with
    | none => rfl
    | some D => exact h0.elim
  | some d =>
    cases O with
    | none => exact h0.elim
    | some D =>
      obtain ⟨R, hb⟩ := h0
      have hb' : d.mem.bufs = [] := hb
      have h1 := run_sim C ops R (fun op _ a b _ i s v w => rfl) (by rw [hb']; exact hk)
      rw [hb'] at h1
      simp only [Option.bind_some]
      generalize d.run C ops = x at h1 ⊢
      generalize valueAnswers C D (plainCalls [] ops) = y at h1 ⊢
      cases x with
      | none =>
        cases y with
        | none => rfl
        | some y => exact h1.elim
      | some x =>
        cases y with
        | none => exact h1.elim
        | some vs =>
          obtain ⟨d', rs⟩ := x
          obtain ⟨_, hl, hr⟩ := h1
          exact readAll_some hl hr

/-! ### Examples -/

end Coniks.Props

namespace Coniks
/-- `RPAD.set` in a form the kernel can evaluate (used in the examples only) -/
def RPAD.setE (C : Crypto) (p : RPAD) (rnd : Option Bytes) (key value : Bytes) : Go (RPAD × Bool) :=
  (p.tree.setE C rnd (C.vrfProve p.vrfKey key).1 key value).map fun (t, ok) => ({ p with tree := t }, ok)

/-- `RDir.register` in a form the kernel can evaluate (used in the examples only) -/
def RDir.registerE (C : Crypto) (d : RDir) (rnd : Option Bytes) (username : Bytes) (key : Nat) : Go (RDir × RResponse) :=
  match d.mem.bufs[key]? with
  | none => none
  | some k =>
    if username.length = 0 ∨ k.length = 0 then some (d, rErrorResponse ErrMalformedMessage)
    else
      match d.pad.lookup C d.mem username with
      | none => none
      | some none => some (d, rErrorResponse ErrDirectory)
      | some (some ap) =>
        match ap.found with
        | none => none
        | some true => (rSingleProof ap d.latestSTR none ReqNameExisted).map fun r => (d, r)
        | some false =>
          match (if d.useTBs then d.tbs username else none) with
          | some tb => (rSingleProof ap d.latestSTR (some tb) ReqNameExisted).map fun r => (d, r)
          | none =>
            match (if d.useTBs then (d.newTB C username key).map fun x => (x.1, some x.2) else some (d.mem, none)) with
            | none => none
            | some (m, tb) =>
              match d.pad.setE C rnd username k with
              | none => none
              | some (pad', false) => some ({ d with mem := m, pad := pad' }, rErrorResponse ErrDirectory)
              | some (pad', true) =>
                let tbs' : Bytes → Option Nat := match tb with
                  | some t => fun n => if n = username then some t else d.tbs n
                  | none => d.tbs
                let d' : RDir := { d with mem := m, pad := pad', tbs := tbs' }
                (rSingleProof ap d'.latestSTR tb ReqSuccess).map fun r => (d', r)

theorem rRegisterE_eq (C : Crypto) (d : RDir) (rnd : Option Bytes) (n : Bytes) (k : Nat) : d.register C rnd n k = d.registerE C rnd n k := by
  have h : ∀ (p : RPAD) key value, p.set C rnd key value = p.setE C rnd key value := by
    intro p key value; unfold RPAD.set RPAD.setE; rw [setE_eq]
  unfold RDir.register RDir.registerE; simp only [h]; rfl
end Coniks

namespace Coniks.Props
open Coniks Spec

/-- the history of the examples: alice registers, the policies change, bob registers, an epoch passes, carol looks alice up -/
def sampleRefs : List ROp :=
  [.buffer [5], .register (some [9]) [0x61] 0, .keyLookup ⟨[0x61]⟩, .setPolicies 77, .buffer [6], .register (some [8]) [0x62] 1, .update,
    .keyLookup ⟨[0x61]⟩, .update, .monitor ⟨[0x61], 0, 2⟩, .getSTRHistory ⟨0, 9⟩]

/-- the hypotheses of `C75_answers` are met and the history runs: six answers, the first of which still shows the old deadline -/
example : KeysExist 0 sampleRefs ∧ NoWrites sampleRefs ∧
    (((newRDir Crypto.toy emptyMem 5 [2] [1] 10 true (some [3]) (some [4])).bind fun d => (d.run Crypto.toy sampleRefs).bind fun x =>
      readAll x.1.mem x.2).map fun rs => (rs.length, rs.map Response.error, (rs.head?.map fun r => match r.resp with
        | .proof p => p.str.map fun s => (s.bind fun y => y.policies).map Policies.epochDeadline
        | _ => []))) = some (6, [100, 100, 100, 100, 100, 100], some [some 5]) := by
  refine ⟨by simp [sampleRefs, KeysExist], by intro op ho a b; simp only [sampleRefs, List.mem_cons, List.not_mem_nil, or_false] at ho; rcases ho with h|h|h|h|h|h|h|h|h|h|h <;> subst h <;> simp, ?_⟩
  simp only [sampleRefs, RDir.run, RDir.step, rRegisterE_eq]
  decide +kernel

set_option synthInstance.maxSize 1000 in
/-- C75, what happens if the slice of a registered key is overwritten before the epoch ends: the directory hands out the overwritten key in
the promise it has signed for another one, so the promise does not verify; the tree got a copy and has the right key in the next epoch. -/
theorem C75_writes_counterexample :
    (((newRDir Crypto.toy emptyMem 5 [2] [1] 10 true (some [3]) (some [4])).bind fun d =>
      (d.run Crypto.toy [.buffer [5], .register (some [9]) [0x61] 0, .write 0 [6], .keyLookup ⟨[0x61]⟩, .update, .keyLookup ⟨[0x61]⟩]).bind fun x =>
      readAll x.1.mem x.2).map fun rs => rs.map fun r => match r.resp with
        | .proof p => (r.error, p.tb.map TB.value, (p.tb.bind fun t => p.str.head?.map fun s => s.map fun y =>
            Crypto.toy.verify (Crypto.toy.signPub [1]) (t.serialize y.core.signature) t.signature), p.ap.map fun a => (a.bind AuthPath.leaf).bind ProofNode.value)
        | _ => (r.error, none, none, [])) =
    some [(100, some [6], some (some false), [none]), (100, some [6], some (some false), [none]), (100, none, none, [some [5]])] := by
  simp only [RDir.run, RDir.step, rRegisterE_eq]
  decide +kernel

end Coniks.Props
