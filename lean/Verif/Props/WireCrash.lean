import Verif.Props.ClientCrash
import Verif.Props.Wire
import Verif.Proofs.Cli
/-
C63, exactly: which replies crash the client; and keys that are too long for the way back.
-/
namespace Coniks.Props
open Coniks Spec Json

/-- C63, exact: a reply to a registration or lookup crashes the client exactly if what it decodes to is one of `Spec.CrashesClient`. -/
theorem C63_crash_iff (C : Crypto) (cc : Client) (htb : cc.useTBs = true) (d : Directory) (t : Int) (ht : t = RegistrationType ∨ t = KeyLookupType)
    (reply : Bytes) (n : Bytes) (key : Option Bytes) :
    Panics (cc.receive C t d reply n key) ↔
      ∃ w, unmarshalResponse t reply = some w ∧ CrashesClient C cc t w.toResponse n key := by
  obtain ⟨w, hw, _⟩ := C63_unmarshal_total t (by rcases ht with rfl | rfl <;> (left; decide)) reply
  unfold Panics Client.receive
  rw [hw, Option.bind_some, Option.map_eq_none_iff]
  simp only [Option.some.injEq, exists_eq_left']
  exact C37_panics_iff C cc htb t w.toResponse n key

/-! ### Keys that get in but not out -/

theorem printMember_length (k : Bytes) (v : JVal) : (printMember (k, v)).length = (quote k).length + 1 + v.print.length := by
  simp [printMember]; omega

/-- an object is at least as long as all its values together -/
theorem obj_length (ms : List (Bytes × JVal)) : (ms.map fun m => (quote m.1).length + 1 + m.2.print.length).sum ≤ (JVal.obj ms).print.length := by
  have h : ∀ ms : List (Bytes × JVal), (ms.map fun m => (quote m.1).length + 1 + m.2.print.length).sum ≤ (printMembers ms).length := by
    intro ms
    induction ms with
    | nil => simp [printMembers]
    | cons m ms ih =>
      obtain ⟨k, v⟩ := m
      simp only [List.map_cons, List.sum_cons, printMembers, List.length_cons, List.length_append, printMember_length]
      omega
  cases ms with
  | nil => simp
  | cons m ms =>
    obtain ⟨k, v⟩ := m
    have := h ms
    simp only [List.map_cons, List.sum_cons, JVal.print, List.length_cons, List.length_append, printMember_length]
    omega

theorem arr_one_length (v : JVal) : v.print.length ≤ (JVal.arr [v]).print.length := by
  simp [JVal.print]; omega

/-- quoting ASCII text does not make it shorter -/
theorem quote_ascii_length (s : Bytes) (h : ∀ b ∈ s, b < 0x80) : s.length + 2 ≤ (quote s).length := by
  have key : ∀ s : Bytes, (∀ b ∈ s, b < 0x80) → s.length ≤ (escAux true 0 s).length := by
    intro s
    induction s with
    | nil => intro _; simp
    | cons a t ih =>
      intro h
      have := ih fun b hb => h b (List.mem_cons_of_mem _ hb)
      have h1 : 1 ≤ (escAscii a).length := by
        have := ascii_forall (p := fun a => decide (1 ≤ (escAscii a).length)) (by decide +kernel) a
        simpa using this
      rw [escAux, utf8Head_ascii a t (h a (by simp))]
      simp only [List.length_append, List.length_cons]
      omega
  have := key s h
  simp only [quote, List.length_cons, List.length_append, List.length_nil]; omega

theorem b64Enc_length : ∀ (b : Bytes), (b64Enc b).length = 4 * ((b.length + 2) / 3)
  | [] => rfl
  | [_] => by simp [b64Enc]
  | [_, _] => by simp [b64Enc]
  | a :: b :: c :: t => by
    simp only [b64Enc, List.length_cons, b64Enc_length t]; omega

theorem encBytes_length (b : Bytes) : 4 * ((b.length + 2) / 3) + 2 ≤ (encBytes b).print.length := by
  have := quote_ascii_length (b64Enc b) fun c hc => (b64Enc_chars b c hc).2.2
  rw [b64Enc_length] at this
  simpa [encBytes, JVal.print] using this

theorem obj_at {ms : List (Bytes × JVal)} {n : Nat} (h : n ≤ (ms.map fun m => (quote m.1).length + 1 + m.2.print.length).sum) :
    n ≤ (JVal.obj ms).print.length := Nat.le_trans h (obj_length ms)

/-- the lengths of the field names -/
theorem names_length :
    (quote (ascii "Level")).length = 7 ∧
    (quote (ascii "Index")).length = 7 ∧
    (quote (ascii "Value")).length = 7 ∧
    (quote (ascii "IsEmpty")).length = 9 ∧
    (quote (ascii "Commitment")).length = 12 ∧
    (quote (ascii "TreeNonce")).length = 11 ∧
    (quote (ascii "PrunedTree")).length = 12 ∧
    (quote (ascii "LookupIndex")).length = 13 ∧
    (quote (ascii "VrfProof")).length = 10 ∧
    (quote (ascii "Leaf")).length = 6 ∧
    (quote (ascii "TreeHash")).length = 10 ∧
    (quote (ascii "Epoch")).length = 7 ∧
    (quote (ascii "PreviousEpoch")).length = 15 ∧
    (quote (ascii "PreviousSTRHash")).length = 17 ∧
    (quote (ascii "Signature")).length = 11 ∧
    (quote (ascii "Policies")).length = 10 ∧
    (quote (ascii "AP")).length = 4 ∧
    (quote (ascii "STR")).length = 5 ∧
    (quote (ascii "TB")).length = 4 ∧
    (quote (ascii "Error")).length = 7 ∧
    (quote (ascii "DirectoryResponse")).length = 19 := by decide +kernel

/-- the length of an answer with one proof: that of a key in it, and at least 220 bytes of field names -/
theorem proof_length (e : ErrorCode) (ap : AuthPath) (s : DirSTR) (tb : Option TB) (l : ProofNode) (hl : ap.leaf = some l) (k : Bytes)
    (hk : l.value = some k ∨ ∃ t, tb = some t ∧ t.value = k) :
    4 * ((k.length + 2) / 3) + 220 ≤ (marshalResponse ⟨e, .proof ⟨[some ap], [some s], tb⟩⟩).length := by
  obtain ⟨n1, n2, n3, n4, n5, n6, n7, n8, n9, n10, n11, n12, n13, n14, n15, n16, n17, n18, n19, n20, n21⟩ := names_length
  have hstr : 76 ≤ (encSTR s).print.length := by
    refine obj_at ?_
    simp only [List.map_cons, List.sum_cons, n11, n12, n13, n14, n15, n16]
    omega
  have hap : ∀ m, m ≤ (encProofNode l).print.length → 57 + m ≤ (encAuthPath ap).print.length := by
    intro m hm
    refine obj_at ?_
    simp only [List.map_cons, List.sum_cons, n6, n7, n8, n9, n10, hl, encPtr]
    omega
  have hleaf : 47 ≤ (encProofNode l).print.length := by
    refine obj_at ?_
    simp only [List.map_cons, List.sum_cons, n1, n2, n3, n4, n5]
    omega
  have hdp : ∀ m, m + 144 ≤ (encProof ⟨[some ap], [some s], tb⟩).print.length → m + 172 ≤
      (marshalResponse ⟨e, .proof ⟨[some ap], [some s], tb⟩⟩).length := by
    intro m hm
    refine obj_at ?_
    simp only [List.map_cons, List.sum_cons, n20, n21]
    omega
  have h := hdp (4 * ((k.length + 2) / 3) + 48) ?_
  · omega
  refine obj_at ?_
  simp only [List.cons_append, List.nil_append, List.map_cons, List.sum_cons, n17, n18, encSlice, List.map_nil]
  have a1 := arr_one_length (encAuthPath ap)
  have a2 := arr_one_length (encSTR s)
  simp only [encPtr] at a1 a2 ⊢
  rcases hk with hk | ⟨t, rfl, rfl⟩
  · have hkl : 47 + 4 * ((k.length + 2) / 3) + 2 ≤ (encProofNode l).print.length := by
      refine obj_at ?_
      have := encBytes_length k
      simp only [List.map_cons, List.sum_cons, n1, n2, n3, n4, n5, hk, encOptBytes]
      omega
    have := hap _ hkl
    omega
  · have := hap _ hleaf
    have ht : 27 + 4 * ((t.value.length + 2) / 3) + 2 ≤ (encTB t).print.length := by
      refine obj_at ?_
      have := encBytes_length t.value
      simp only [List.map_cons, List.sum_cons, n2, n3, n15]
      omega
    simp only [List.map_cons, List.sum_cons, n19]
    omega

/-- C63 (refutes: a registration that the server accepts and its answer reach each other; a registered name can be looked up). Requests and
answers share the limit of 8192 bytes, but an answer repeats the key together with its proof. So for every history of the directory and a
key of at least 5980 bytes, whatever the client and its state: if the name is new and the request fits, the directory registers it, and the client reports
`ErrMalformedMessage`; once the name is registered, every further lookup and registration of it ends the same way, in all later epochs. -/
theorem C63_big_key_counterexample (C : Crypto) (t0 : UInt64) (sk vk : Bytes) (size : Nat) (r₁ r₂ : Bytes) (ops : List DirOp)
    (hlt : dirUpdates ops < 2 ^ 64) (d : Directory) (log : List STR) (h : dirAfter C t0 sk vk size r₁ r₂ ops = some (d, log))
    (n : Bytes) (hn : n ≠ []) (hu : Utf8 n) (spread : IndexSpread (fun k => (C.vrfProve vk k).1) (n :: regNames ops))
    (k : Bytes) (hk : 5980 ≤ k.length) (perms : Nat → Int → Bool) (addr : Nat) (p0 : perms addr 0 = true) (p1 : perms addr 1 = true)
    (cc : Client) :
    (∀ rnd, (absAfter ops).merged n = none → (createRegistrationMsg n (some k)).length ≤ 8192 →
      ∃ d' resp, d.register C (some rnd) ⟨n, k⟩ = some (d', resp) ∧ resp.error = ReqSuccess ∧
        cc.wireRegister C perms (some rnd) d addr n k = some (d', cc, some ErrMalformedMessage)) ∧
    ((absAfter ops).merged n = some k →
      (∀ key, cc.wireLookup C perms d addr n key = some (d, cc, some ErrMalformedMessage)) ∧
      (∀ rnd k', k' ≠ [] → cc.wireRegister C perms rnd d addr n k' = some (d, cc, some ErrMalformedMessage))) := by
  have hk0 : k ≠ [] := by rintro rfl; simp at hk
  obtain ⟨⟨lr, hlr, hla⟩, hreg⟩ := C25_responses_spread C t0 sk vk size r₁ r₂ ops hlt d log h n spread
  have long : ∀ (resp : Response) (a : ErrorCode × Option Bytes × Option Bytes), Shows C sk vk n d.latestSTR resp a →
      (a.2.1 = some k ∨ a.2.2 = some k) → ¬ (marshalResponse resp).length ≤ 8192 := by
    rintro resp ⟨e, it, pr⟩ ⟨ap, rfl, hp⟩ ha
    obtain ⟨l, h1, h2⟩ := hp.value
    have := proof_length e ap d.latestSTR (pr.map (promise C sk vk d.latestSTR.core.signature n)) l h1 k (by
      rcases ha with ha | ha
      · exact .inl (h2.trans ha)
      · right
        dsimp only at ha
        rw [ha]
        exact ⟨_, rfl, rfl⟩)
    dsimp only at this ⊢
    omega
  have i := after_std h
  refine ⟨?_, ?_⟩
  · intro rnd hm hfit
    obtain ⟨d', resp, hr, ha⟩ := hreg (some rnd) k
    have hc : (absAfter ops).pending n = none ∧ (absAfter ops).committed n = none := by
      unfold AbsDir.merged at hm
      split at hm
      · exact nomatch hm
      · rename_i hp; exact ⟨hp, hm⟩
    have hans : (absAfter ops).registerAnswer (some rnd) n k = (ReqSuccess, none, some k) := by
      simp [AbsDir.registerAnswer, hn, hk0, hc]
    rw [hans] at ha
    have ha : Shows C sk vk n d.latestSTR resp (ReqSuccess, none, some k) := by
      unfold Answers at ha
      rwa [if_neg (by show ¬ (ReqSuccess = ErrMalformedMessage ∨ ReqSuccess = ErrDirectory); decide)] at ha
    refine ⟨d', resp, hr, ?_, ?_⟩
    · obtain ⟨ap, rfl, _⟩ := ha; rfl
    · rw [wireRegister_eq p0 i hu, if_pos hfit, hr, Option.bind_some, if_neg (long _ _ ha (.inr rfl))]
  · intro hm
    have hcp : ((absAfter ops).committed n = none ∧ (absAfter ops).pending n = some k) ∨ (absAfter ops).committed n = some k := by
      have hdis := disj_after ops _ disj_init
      unfold AbsDir.merged at hm
      cases hp : (absAfter ops).pending n with
      | some v => rw [hp] at hm; cases hm; exact .inl ⟨hdis n k hp, rfl⟩
      | none => rw [hp] at hm; exact .inr hm
    have shown : ∀ (resp : Response) (a : ErrorCode × Option Bytes × Option Bytes), (a.1 = ReqSuccess ∨ a.1 = ReqNameExisted) →
        Answers C sk vk n d.latestSTR resp a → Shows C sk vk n d.latestSTR resp a := by
      intro resp a ha h
      unfold Answers at h
      rcases ha with ha | ha <;> rwa [ha, if_neg (by decide)] at h
    refine ⟨?_, ?_⟩
    · intro key
      rw [wireLookup_eq p1 i hu]
      split
      · rw [hlr, Option.bind_some, if_neg]
        unfold AbsDir.lookupAnswer at hla
        rw [if_neg hn] at hla
        rcases hcp with ⟨hc, hp⟩ | hc
        · rw [hc, hp] at hla
          exact long _ _ (shown _ _ (.inl rfl) hla) (.inr rfl)
        · rw [hc] at hla
          exact long _ _ (shown _ _ (.inl rfl) hla) (.inl rfl)
      · rfl
    · intro rnd k' hk'
      rw [wireRegister_eq p0 i hu]
      split
      · obtain ⟨d', resp, hr, ha⟩ := hreg rnd k'
        have hex : ∃ a : ErrorCode × Option Bytes × Option Bytes, a.1 = ReqNameExisted ∧ Shows C sk vk n d.latestSTR resp a ∧
            (a.2.1 = some k ∨ a.2.2 = some k) := by
          unfold AbsDir.registerAnswer at ha
          rw [if_neg (by simp [hn, hk'])] at ha
          rcases hcp with ⟨hc, hp⟩ | hc
          · rw [hc, hp] at ha
            exact ⟨_, rfl, shown _ _ (.inr rfl) ha, .inr rfl⟩
          · rw [hc] at ha
            exact ⟨_, rfl, shown _ _ (.inr rfl) ha, .inl rfl⟩
        obtain ⟨a, ha1, ha2, ha3⟩ := hex
        have he : resp.error = ReqNameExisted := by obtain ⟨ap, rfl, _⟩ := ha2; exact ha1
        have hd : d' = d := C26_reads_pure C t0 sk vk size r₁ r₂ ops hlt d log h (.register rnd ⟨n, k'⟩) d' resp (by simp [Directory.step, hr])
          (fun _ => by rw [he]; decide)
        rw [hr, Option.bind_some, if_neg (long _ _ ha2 ha3), hd]
      · rfl

/-- The key of 6000 bytes: the request fits. -/
theorem bigKey_fits : (createRegistrationMsg (ascii "alice") (some (List.replicate 6000 0x41))).length ≤ 8192 := by decide +kernel

/-- alice registers such a key, for instance that of 6000 bytes, and looks it up in the next epoch -/
example (cc : Client) (k : Bytes) (hk : 5980 ≤ k.length) (hf : (createRegistrationMsg (ascii "alice") (some k)).length ≤ 8192) : ∃ d₀ log₀ d₁ d₂, dirAfter Crypto.toy 5 [1] [2] 10 [3] [4] [] = some (d₀, log₀) ∧
    cc.wireRegister Crypto.toy (fun _ _ => true) (some [7]) d₀ 0 (ascii "alice") k =
      some (d₁, cc, some ErrMalformedMessage) ∧ d₂ = d₁.update Crypto.toy ∧
    cc.wireLookup Crypto.toy (fun _ _ => true) d₂ 0 (ascii "alice") none = some (d₂, cc, some ErrMalformedMessage) := by
  have hu : Utf8 (ascii "alice") := ⟨['a', 'l', 'i', 'c', 'e'], by decide⟩
  have h0 : (dirAfter Crypto.toy 5 [1] [2] 10 [3] [4] []).isSome = true := by rw [dirAfterE_eq]; decide +kernel
  obtain ⟨⟨d₀, log₀⟩, h0⟩ := Option.isSome_iff_exists.mp h0
  obtain ⟨d₁, resp, hr, _, hw⟩ := (C63_big_key_counterexample Crypto.toy 5 [1] [2] 10 [3] [4] [] (by decide) d₀ log₀ h0 (ascii "alice") (by decide) hu
    (by decide +kernel) k hk (fun _ _ => true) 0 rfl rfl cc).1 [7] rfl hf
  have h2 : dirAfter Crypto.toy 5 [1] [2] 10 [3] [4] [.register (some [7]) ⟨ascii "alice", k⟩, .update] =
      some (d₁.update Crypto.toy, log₀ ++ [] ++ [(d₁.update Crypto.toy).pad.latest]) := by
    have : dirAfter Crypto.toy 5 [1] [2] 10 [3] [4] ([] ++ [.register (some [7]) ⟨ascii "alice", k⟩, .update]) = _ :=
      dirAfter_append ..
    rw [List.nil_append] at this
    rw [this, h0]
    simp [Directory.runLog, Directory.step, hr, DirOp.issued]
  have hm : (absAfter [.register (some [7]) ⟨ascii "alice", k⟩, .update]).merged (ascii "alice") =
      some k := by
    have hk0 : k ≠ [] := by rintro rfl; simp at hk
    have hn0 : ascii "alice" ≠ [] := by decide
    simp [absAfter, AbsDir.step, AbsDir.init, AbsDir.merged, AbsDir.add, AbsDir.nextEpoch, hk0, hn0]
  exact ⟨d₀, log₀, d₁, _, h0, hw, rfl,
    ((C63_big_key_counterexample Crypto.toy 5 [1] [2] 10 [3] [4]
      [.register (some [7]) ⟨ascii "alice", k⟩, .update] (show 1 < 2 ^ 64 by decide) _ _ h2 (ascii "alice") (by decide) hu
      (show IndexSpread _ [ascii "alice", ascii "alice"] by decide +kernel) k hk (fun _ _ => true) 0 rfl rfl cc).2 hm).1 none⟩

end Coniks.Props
