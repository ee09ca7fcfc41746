import Verif.Proofs.Bot
import Verif.Proofs.EvalDir
import Verif.Props.Directory
/-
C71: the Twitter bot at work, with its key server. (Also C23: every key shown was registered.)
-/
namespace Coniks.Props
open Coniks Spec Json

/-! ### C23 -/

/-- C23, the other half. In every reachable state, every key that an answer to a lookup or monitoring request about a name shows was registered
for that name by an earlier `Register` that succeeded. -/
theorem C23_only_registered (C : Crypto) (t0 : UInt64) (sk vk : Bytes) (size : Nat) (r₁ r₂ : Bytes) (ops : List DirOp) (hlt : dirUpdates ops < 2 ^ 64)
    (d : Directory) (log : List STR) (h : dirAfter C t0 sk vk size r₁ r₂ ops = some (d, log)) (n : Bytes)
    (inj : IndexInj (fun k => (C.vrfProve vk k).1) (n :: regNames ops)) (op : DirOp) (hop : reqName op = some n)
    (hr : ∀ rnd req, op ≠ .register rnd req) (d' : Directory) (resp : Response) (hs : d.step C op = some (d', some resp)) :
    ∀ k ∈ keysShown resp, ∃ a rnd b d₁ log₁ d₂ resp₁, ops = a ++ .register rnd ⟨n, k⟩ :: b ∧
      dirAfter C t0 sk vk size r₁ r₂ a = some (d₁, log₁) ∧ d₁.register C rnd ⟨n, k⟩ = some (d₂, resp₁) ∧ resp₁.error = ReqSuccess := by
  intro k hk
  obtain ⟨A, inv, ho⟩ := merged_registered C t0 sk vk size r₁ r₂ (n :: regNames ops) inj ops (fun _ h => List.mem_cons_of_mem _ h) hlt d log h
  refine ho n k (read_shows inv op n hop hr ?_ d' resp hs k hk)
  intro a ha b hb e
  refine inj a ?_ b ?_ e
  · rcases List.mem_cons.mp ha with rfl | ha; exact List.mem_cons_self ..; exact ha
  · rcases List.mem_cons.mp hb with rfl | hb; exact List.mem_cons_self ..; exact hb

/-- a history with two registrations of a name and one of another: the key shown is that of the first -/
example (d : Directory) (log : List STR) (h : dirAfter Crypto.toy 5 [1] [2] 10 [3] [4] sampleDir = some (d, log)) (resp : Response)
    (hs : d.keyLookup Crypto.toy ⟨[0x61]⟩ = some resp) : ∀ k ∈ keysShown resp, ∃ a rnd b, sampleDir = a ++ .register rnd ⟨[0x61], k⟩ :: b := by
  intro k hk
  obtain ⟨a, rnd, b, _, _, _, _, e, _⟩ := C23_only_registered Crypto.toy 5 [1] [2] 10 [3] [4] sampleDir (by decide) d log h [0x61]
    (spread_inj sampleDir_spread) (.keyLookup ⟨[0x61]⟩) rfl (fun _ _ e => by cases e) d resp (by simp [Directory.step, hs]) k hk
  exact ⟨a, rnd, b, e⟩

/-! ### C71 -/

/-- C71. One direct message that the bot has to answer. If it does not ask for a registration in its sender's name, it is answered with
`ErrMalformedMessage` and the directory stays. If it does (and the message fits the server's buffer and the server lets the bot register), then
the name is registered with the key exactly as by `Register`, and the answer is what the server wrote; if the bot cannot read that answer, the
registration takes place but the user is told `ErrDirectory`; if the bot cannot send, nothing happens and the user is told `ErrDirectory`. -/
theorem C71_message (C : Crypto) (X : Text) (perms : Nat → Int → Bool) (conf : BotConf) (rnd : Option Bytes) (link : Link) (sent : Option Nat)
    (d : Directory) (dm : DM) (msg : Bytes) (hm : dm.text = messagePrefix ++ msg) (hown : X.equalFold dm.sender conf.handle = false) :
    ((¬ ∃ n k, Asks X dm.sender dm.text n k) → onDirectMessage C X perms conf rnd link sent d dm =
      some (d, repliedWith dm sent (marshalResponse ⟨ErrMalformedMessage, .none⟩))) ∧
    ∀ n k, Asks X dm.sender dm.text n k →
      (link = .notSent → onDirectMessage C X perms conf rnd link sent d dm = some (d, repliedWith dm sent (marshalResponse ⟨ErrDirectory, .none⟩))) ∧
      (msg.length ≤ 8192 → perms conf.addr 0 = true →
        (link = .works → onDirectMessage C X perms conf rnd link sent d dm =
          (d.register C rnd ⟨n, k⟩).map fun x => (x.1, repliedWith dm sent ((marshalResponse x.2).take 8192))) ∧
        (link = .noAnswer → onDirectMessage C X perms conf rnd link sent d dm =
          (d.register C rnd ⟨n, k⟩).map fun x => (x.1, repliedWith dm sent (marshalResponse ⟨ErrDirectory, .none⟩)))) := by
  rw [onDM_due C X perms conf rnd link sent d dm msg hm hown, hm]
  constructor
  · intro hno
    rw [handleWith_refuse C X perms conf rnd link d dm.sender msg]
    · rfl
    · rintro ⟨r, hu, hx⟩
      exact hno ⟨r.username, r.key, (asks_iff X dm.sender msg _ _).mpr ⟨hu, hx⟩⟩
  · intro n k ha
    obtain ⟨hu, hx⟩ := (asks_iff X dm.sender msg n k).mp ha
    rw [handleWith_forward C X perms conf rnd link d dm.sender msg ⟨_, hu, hx⟩]
    refine ⟨?_, fun hl hp => ⟨?_, ?_⟩⟩
    · rintro rfl; rfl
    · rintro rfl
      simp only [sendRequestToCONIKS]
      rw [exchange_short C perms rnd d conf.addr msg hl _ hu hp, handle_reg]
      simp only [Option.map_map]
      rfl
    · rintro rfl
      simp only [sendRequestToCONIKS]
      rw [exchange_short C perms rnd d conf.addr msg hl _ hu hp, handle_reg]
      simp only [Option.map_map]
      rfl

/-- C71. A message of the bot's own handle is ignored; any other message without the prefix is destroyed later, and nothing else happens. -/
theorem C71_ignored (C : Crypto) (X : Text) (perms : Nat → Int → Bool) (conf : BotConf) (rnd : Option Bytes) (link : Link) (sent : Option Nat)
    (d : Directory) (dm : DM) :
    (X.equalFold dm.sender conf.handle = true → onDirectMessage C X perms conf rnd link sent d dm = some (d, ⟨[], []⟩)) ∧
    (X.equalFold dm.sender conf.handle = false → ¬ messagePrefix <+: dm.text →
      onDirectMessage C X perms conf rnd link sent d dm = some (d, ⟨[], [dm.id]⟩)) := by
  constructor
  · intro h; unfold onDirectMessage; rw [if_pos h]
  · intro h hp
    unfold onDirectMessage
    rw [if_neg (by simp [h]), if_neg (fun e => hp (List.isPrefixOf_iff_prefix.mp e))]

/-- C49 with the decoder of the Go library: whatever the length of the message, what the key server does with a forwarded message is a
registration of a name that is the sender's handle up to letter case, or a refusal. -/
theorem C49_end_to_end_json (C : Crypto) (X : Text) (handle msg : Bytes) (send : Bytes → Option Bytes)
    (h : (handleRegistration goJson X handle msg send).1 = some msg) (perms : Nat → Int → Bool) (addr : Nat) (rnd : Option Bytes)
    (d d' : Directory) (resp : Option Response) (hs : acceptClient C goJson perms rnd d addr ⟨msg, false⟩ = some (d', resp)) :
    (d' = d ∧ resp = some ⟨ErrMalformedMessage, .none⟩) ∨
    ∃ r resp', X.equalFold (X.toLower handle ++ atTwitter) r.username = true ∧ d.register C rnd r = some (d', resp') ∧ resp = some resp' :=
  C49_end_to_end C goJson X handle msg send h (.inr fun q q' => request_prefix msg 8192 q q') perms addr rnd d d' resp hs

/-- "bob", Twitter user number 1 of the examples, and the bot -/
def sampleBot : BotConf := ⟨ascii "coniks_bot", 7⟩

/-- bob asks for bob@twitter -/
def sampleDM : DM := ⟨11, ascii "Bob", messagePrefix ++ createRegistrationMsg (ascii "bob@twitter") (some [1, 2])⟩

theorem sampleDM_reads : unmarshalRequest goJson (createRegistrationMsg (ascii "bob@twitter") (some [1, 2])) =
    some ⟨0, .registration ⟨ascii "bob@twitter", [1, 2]⟩⟩ := by decide +kernel

theorem sampleDM_asks : Asks asciiText sampleDM.sender sampleDM.text (ascii "bob@twitter") [1, 2] :=
  (asks_iff _ _ _ _ _).mpr ⟨sampleDM_reads, by decide +kernel⟩

/-- the bot forwards bob's message -/
example (send : Bytes → Option Bytes) : (handleRegistration goJson asciiText (ascii "Bob") (createRegistrationMsg (ascii "bob@twitter") (some [1, 2])) send).1 =
    some (createRegistrationMsg (ascii "bob@twitter") (some [1, 2])) :=
  ((C49_forwards_iff _ _ _ _ _).1 ⟨_, sampleDM_reads, by decide +kernel⟩).1

/-- bob's message is a registration; the same text from eve is refused -/
example (C : Crypto) (rnd : Option Bytes) (sent : Option Nat) (d : Directory) :
    onDirectMessage C asciiText (permsMap [⟨7, true⟩, ⟨8, false⟩]) sampleBot rnd .works sent d sampleDM =
      ((d.register C rnd ⟨ascii "bob@twitter", [1, 2]⟩).map fun x => (x.1, repliedWith sampleDM sent ((marshalResponse x.2).take 8192))) ∧
    onDirectMessage C asciiText (permsMap [⟨7, true⟩, ⟨8, false⟩]) sampleBot rnd .works sent d { sampleDM with sender := ascii "eve" } =
      some (d, repliedWith { sampleDM with sender := ascii "eve" } sent (marshalResponse ⟨ErrMalformedMessage, .none⟩)) := by
  refine ⟨(((C71_message C asciiText _ sampleBot rnd .works sent d sampleDM _ rfl (by decide +kernel)).2 _ _ sampleDM_asks).2 (by decide +kernel)
    (by decide)).1 rfl, (C71_message C asciiText _ sampleBot rnd .works sent d _ _ rfl (by decide +kernel)).1 ?_⟩
  rintro ⟨n, k, ha⟩
  obtain ⟨hu, hx⟩ := (asks_iff _ _ _ _ _).mp ha
  rw [sampleDM_reads] at hu
  cases hu
  exact absurd hx (by decide +kernel)

theorem onDM_out (C : Crypto) (X : Text) (perms : Nat → Int → Bool) (conf : BotConf) (rnd : Option Bytes) (link : Link) (sent : Option Nat)
    (d d' : Directory) (dm : DM) (out : BotOut) (h : onDirectMessage C X perms conf rnd link sent d dm = some (d', out)) :
    out.replies.map Prod.fst = (if due X conf dm ∧ sent.isSome then [dm.sender] else []) ∧
    (∀ r ∈ out.replies, messagePrefix <+: r.2) ∧
    out.doomed = if X.equalFold dm.sender conf.handle then [] else dm.id :: (if due X conf dm then sent.toList else []) := by
  by_cases ho : X.equalFold dm.sender conf.handle = true
  · rw [(C71_ignored C X perms conf rnd link sent d dm).1 ho] at h
    cases h
    simp [due, ho]
  · have ho' : X.equalFold dm.sender conf.handle = false := by simpa using ho
    by_cases hp : messagePrefix <+: dm.text
    · obtain ⟨msg, hm⟩ := hp
      have hd : due X conf dm = true := by
        simp only [due, ho', Bool.not_false, Bool.true_and]
        exact List.isPrefixOf_iff_prefix.mpr ⟨msg, hm⟩
      rw [onDM_due C X perms conf rnd link sent d dm msg hm.symm ho'] at h
      obtain ⟨⟨d1, b⟩, _, e⟩ := Option.map_eq_some_iff.mp h
      simp only [Prod.mk.injEq] at e
      obtain ⟨rfl, rfl⟩ := e
      simp only [repliedWith, hd, ho', true_and, if_true]
      cases sent with
      | none => simp
      | some i => simp
    · have hd : due X conf dm = false := by
        simp only [due, ho', Bool.not_false, Bool.true_and]
        cases hb : messagePrefix.isPrefixOf dm.text with
        | false => rfl
        | true => exact absurd (List.isPrefixOf_iff_prefix.mp hb) hp
      rw [(C71_ignored C X perms conf rnd link sent d dm).2 ho' hp] at h
      cases h
      simp [hd, ho']

/-- C71. Over every history: the bot sends exactly one message for each message it has to answer and whose answer Twitter takes, in this order, to
the sender, and beginning with the prefix; and it destroys exactly the messages of others and its answers to them. -/
theorem C71_replies (C : Crypto) (X : Text) (perms : Nat → Int → Bool) (conf : BotConf) (es : List BotEv) : ∀ (w w' : BotWorld),
    w.run C X perms conf es = some w' →
    ∃ out, w'.replies = w.replies ++ out ∧
      out.map Prod.fst = ((messages es).filter fun m => due X conf m.1 && m.2.isSome).map (fun m => m.1.sender) ∧
      (∀ r ∈ out, messagePrefix <+: r.2) ∧
      w'.doomed = w.doomed ++ ((messages es).filter fun m => !X.equalFold m.1.sender conf.handle).flatMap fun m =>
        m.1.id :: (if due X conf m.1 then m.2.toList else []) := by
  induction es with
  | nil =>
    intro w w' h
    cases h
    exact ⟨[], by simp, by simp [messages], by simp, by simp [messages]⟩
  | cons e es ih =>
    intro w w' h
    simp only [BotWorld.run] at h
    obtain ⟨w1, h1, h⟩ := Option.bind_eq_some_iff.mp h
    obtain ⟨out, a, b, c, f⟩ := ih w1 w' h
    have quiet : w1.replies = w.replies → w1.doomed = w.doomed → messages (e :: es) = messages es →
      ∃ out, w'.replies = w.replies ++ out ∧
      out.map Prod.fst = ((messages (e :: es)).filter fun m => due X conf m.1 && m.2.isSome).map (fun m => m.1.sender) ∧
      (∀ r ∈ out, messagePrefix <+: r.2) ∧
      w'.doomed = w.doomed ++ ((messages (e :: es)).filter fun m => !X.equalFold m.1.sender conf.handle).flatMap fun m =>
        m.1.id :: (if due X conf m.1 then m.2.toList else []) := by
      intro e1 e2 e3
      rw [e3, ← e1, ← e2]
      exact ⟨out, a, b, c, f⟩
    cases e with
    | dm m rnd link sent =>
      obtain ⟨⟨d1, o⟩, hx, e⟩ := Option.map_eq_some_iff.mp h1
      obtain ⟨g1, g2, g3⟩ := onDM_out C X perms conf rnd link sent w.dir d1 m o hx
      rw [← e] at a f
      dsimp only at a f
      refine ⟨o.replies ++ out, by rw [a, List.append_assoc], ?_, ?_, ?_⟩
      · rw [List.map_append, g1, b]
        simp only [messages, List.filter_cons]
        by_cases hq : due X conf m = true ∧ sent.isSome = true
        · rw [if_pos hq, if_pos (by simp [hq.1, hq.2])]; rfl
        · rw [if_neg hq, if_neg (by simpa using hq)]; rfl
      · intro r hr
        rcases List.mem_append.mp hr with hr | hr
        · exact g2 r hr
        · exact c r hr
      · rw [f, g3, List.append_assoc]
        simp only [messages, List.filter_cons]
        by_cases hq : X.equalFold m.sender conf.handle = true
        · simp [hq]
        · simp [hq]
    | conn addr rnd c =>
      obtain ⟨x, _, e⟩ := Option.map_eq_some_iff.mp h1
      exact quiet (by rw [← e]) (by rw [← e]) rfl
    | update => cases h1; exact quiet rfl rfl rfl
    | setPolicies t => cases h1; exact quiet rfl rfl rfl

/-- bob, somebody chatting, the bot's own message; Twitter takes the answer to bob as number 12 -/
example (C : Crypto) (d : Directory) (rnd : Option Bytes) (w' : BotWorld)
    (h : BotWorld.run C asciiText (permsMap [⟨7, true⟩]) sampleBot ⟨d, [], []⟩
      [.dm sampleDM rnd .works (some 12), .update, .dm ⟨13, ascii "eve", ascii "hello"⟩ none .works none, .dm ⟨14, ascii "CONIKS_bot", messagePrefix⟩ none .works none]
        = some w') : w'.replies.map Prod.fst = [ascii "Bob"] ∧ w'.doomed = [11, 12, 13] := by
  obtain ⟨out, a, b, _, f⟩ := C71_replies C asciiText _ sampleBot _ _ w' h
  rw [show messages _ = [(sampleDM, some 12), (⟨13, ascii "eve", ascii "hello"⟩, none), (⟨14, ascii "CONIKS_bot", messagePrefix⟩, none)] from rfl] at b f
  rw [a, f]
  exact ⟨by rw [List.nil_append, b]; decide +kernel, by rw [List.nil_append]; decide +kernel⟩

/-- C71. The reason for the bot. If only its own connection to the key server may register names, then after any history of direct messages,
connections of others, epochs and policy changes, every key that the directory shows for a name was asked for in a direct message whose
sender's handle is that name up to letter case. `ns`: the names asked for; they and `n` have different VRF indices. -/
theorem C71_owner (C : Crypto) (X : Text) (addrs : List Address) (hd : (addrs.map Address.ptr).Nodup) (conf : BotConf)
    (only : ∀ a ∈ addrs, a.allowRegistration = true → a.ptr = conf.addr) (t0 : UInt64) (sk vk : Bytes) (size : Nat) (r₁ r₂ : Bytes)
    (d₀ : Directory) (hnew : newDirectory C t0 vk sk size true (some r₁) (some r₂) = some d₀) (es : List BotEv)
    (hpriv : ∀ rnd c, BotEv.conn conf.addr rnd c ∉ es) (hlt : botUpdates es < 2 ^ 64) (w : BotWorld)
    (h : BotWorld.run C X (permsMap addrs) conf ⟨d₀, [], []⟩ es = some w) (n : Bytes) (ns : List Bytes)
    (hns : ∀ m sent n k, (m, sent) ∈ messages es → Asks X m.sender m.text n k → n ∈ ns)
    (inj : IndexInj (fun k => (C.vrfProve vk k).1) (n :: ns)) (op : DirOp) (hop : reqName op = some n) (hr : ∀ rnd req, op ≠ .register rnd req)
    (d' : Directory) (resp : Response) (hs : w.dir.step C op = some (d', some resp)) :
    ∀ k ∈ keysShown resp, ∃ m sent, (m, sent) ∈ messages es ∧ Asks X m.sender m.text n k := by
  have h0 : dirAfter C t0 sk vk size r₁ r₂ [] = some (d₀, [d₀.pad.latest]) := by simp [dirAfter, hnew, Directory.runLog]
  obtain ⟨ops, log, ha, hu, hreg⟩ := bot_ops C X addrs hd conf only t0 sk vk size r₁ r₂ es [] ⟨d₀, [], []⟩ w _ h0 hpriv h
  rw [List.nil_append] at ha
  have sub : ∀ x ∈ n :: regNames ops, x ∈ n :: ns := by
    intro x hx
    rcases List.mem_cons.mp hx with rfl | hx
    · exact List.mem_cons_self ..
    · obtain ⟨rnd, r, hm, rfl⟩ := regNames_mem ops x hx
      obtain ⟨m, sent, hm, hk⟩ := hreg rnd r hm
      exact List.mem_cons_of_mem _ (hns m sent _ _ hm hk)
  intro k hk
  obtain ⟨a, rnd, b, _, _, _, _, e, _⟩ := C23_only_registered C t0 sk vk size r₁ r₂ ops (by rw [hu]; exact hlt) w.dir log ha n
    (fun x hx y hy e => inj x (sub x hx) y (sub y hy) e) op hop hr d' resp hs k hk
  exact hreg rnd ⟨n, k⟩ (by rw [e]; simp)

/-- C71. Neither the messages nor the connections crash the bot or its key server. -/
theorem C71_no_crash (C : Crypto) (X : Text) (perms : Nat → Int → Bool) (conf : BotConf) (t0 : UInt64) (sk vk : Bytes) (size : Nat) (r₁ r₂ : Bytes)
    (es : List BotEv) : ∀ (pre : List DirOp) (w : BotWorld) (log : List STR), dirUpdates pre + botUpdates es < 2 ^ 64 →
    dirAfter C t0 sk vk size r₁ r₂ pre = some (w.dir, log) → ∃ w', w.run C X perms conf es = some w' := by
  induction es with
  | nil => intro pre w log _ _; exact ⟨w, rfl⟩
  | cons e es ih =>
    intro pre w log hlt h
    have hpre : dirUpdates pre < 2 ^ 64 := by omega
    have one : ∀ (w1 : BotWorld) op resp, w.dir.step C op = some (w1.dir, resp) → botUpdates (e :: es) = dirUpdates [op] + botUpdates es →
        ∃ w', w1.run C X perms conf es = some w' := by
      intro w1 op resp hs hu
      refine ih (pre ++ [op]) w1 (log ++ op.issued w1.dir) (by rw [dirUpdates_append]; omega) ?_
      rw [dirAfter_append, h, Option.bind_some]
      simp only [Directory.runLog, hs, Option.bind_some]
    have stay : ∀ (w1 : BotWorld), w1.dir = w.dir → botUpdates (e :: es) = botUpdates es → ∃ w', w1.run C X perms conf es = some w' :=
      fun w1 hs hu => ih pre w1 log (by omega) (by rw [hs]; exact h)
    simp only [BotWorld.run]
    cases e with
    | dm m rnd link sent =>
      obtain ⟨⟨d1, out⟩, hx⟩ : ∃ x, onDirectMessage C X perms conf rnd link sent w.dir m = some x := by
        by_cases ho : X.equalFold m.sender conf.handle = true
        · exact ⟨_, (C71_ignored C X perms conf rnd link sent w.dir m).1 ho⟩
        · have ho' : X.equalFold m.sender conf.handle = false := by simpa using ho
          by_cases hp : messagePrefix <+: m.text
          · obtain ⟨msg, hm⟩ := hp
            rw [onDM_due C X perms conf rnd link sent w.dir m msg hm.symm ho']
            by_cases hf : ∃ r, unmarshalRequest goJson msg = some ⟨0, .registration r⟩ ∧ X.equalFold (X.toLower m.sender ++ atTwitter) r.username = true
            · rw [handleWith_forward C X perms conf rnd link w.dir m.sender msg hf]
              obtain ⟨d1, resp, hacc⟩ := C31_no_bytes_crash C goJson t0 sk vk size r₁ r₂ pre hpre w.dir log h perms conf.addr rnd ⟨msg, false⟩
              cases link with
              | notSent => exact ⟨_, rfl⟩
              | works => simp only [sendRequestToCONIKS, exchange, hacc, Option.map_some]; exact ⟨_, rfl⟩
              | noAnswer => simp only [sendRequestToCONIKS, exchange, hacc, Option.map_some]; exact ⟨_, rfl⟩
            · rw [handleWith_refuse C X perms conf rnd link w.dir m.sender msg hf]
              exact ⟨_, rfl⟩
          · exact ⟨_, (C71_ignored C X perms conf rnd link sent w.dir m).2 ho' hp⟩
      simp only [BotWorld.step, hx, Option.map_some, Option.bind_some]
      rcases onDM_ops C X perms conf rnd link sent w.dir d1 m out hx with hs | ⟨r, resp, _, _, hreg⟩
      · exact stay _ hs rfl
      · exact one _ (.register rnd r) (some resp) (by simp only [Directory.step, hreg, Option.map_some]) (by simp [botUpdates, dirUpdates])
    | conn addr rnd c =>
      obtain ⟨d1, resp, hacc⟩ := C31_no_bytes_crash C goJson t0 sk vk size r₁ r₂ pre hpre w.dir log h perms addr rnd c
      simp only [BotWorld.step, hacc, Option.map_some, Option.bind_some]
      by_cases hs : d1 = w.dir
      · exact stay _ hs rfl
      · -- a registration
        unfold acceptClient at hacc
        cases hsc : screen goJson perms addr c with
        | inr r => rw [hsc] at hacc; cases hacc; exact absurd rfl hs
        | inl req =>
          rw [hsc] at hacc
          obtain ⟨⟨d2, r2⟩, hx, e⟩ := Option.map_eq_some_iff.mp hacc
          cases e
          by_cases h0 : req.type = 0 ∧ ∃ m, req.payload = .registration m
          · obtain ⟨h0, m, hm⟩ := h0
            obtain ⟨t, p⟩ := req
            simp only at h0 hm
            subst h0 hm
            rw [handle_reg] at hx
            exact one _ (.register rnd m) (some r2) (by simp only [Directory.step, hx, Option.map_some]) (by simp [botUpdates, dirUpdates])
          · refine absurd (handle_same_dir (r := r2) hx ?_) hs
            by_cases ht : req.type = 0
            · exact .inr fun m hm => h0 ⟨ht, m, hm⟩
            · exact .inl ht
    | update =>
      simp only [BotWorld.step, Option.bind_some]
      exact one _ .update none rfl (by simp [botUpdates, dirUpdates]; omega)
    | setPolicies t =>
      simp only [BotWorld.step, Option.bind_some]
      exact one _ (.setPolicies t) none rfl (by simp [botUpdates, dirUpdates])

/-- bob registers through the bot while eve tries to register his name on the public address: the run exists, and bob's name never shows a key of
eve's -/
example (d₀ : Directory) (hnew : newDirectory Crypto.toy 5 [2] [1] 10 true (some [3]) (some [4]) = some d₀) (resp : Response) : ∃ w,
    BotWorld.run Crypto.toy asciiText (permsMap [⟨7, true⟩, ⟨8, false⟩]) sampleBot ⟨d₀, [], []⟩
      [.conn 8 (some [5]) ⟨createRegistrationMsg (ascii "bob@twitter") (some [9]), false⟩, .dm sampleDM (some [6]) .works (some 12), .update] = some w ∧
    (w.dir.keyLookup Crypto.toy ⟨ascii "bob@twitter"⟩ = some resp → ∀ k ∈ keysShown resp, k = [1, 2]) := by
  have h0 : dirAfter Crypto.toy 5 [1] [2] 10 [3] [4] [] = some (d₀, [d₀.pad.latest]) := by simp [dirAfter, hnew, Directory.runLog]
  obtain ⟨w, hw⟩ := C71_no_crash Crypto.toy asciiText (permsMap [⟨7, true⟩, ⟨8, false⟩]) sampleBot 5 [1] [2] 10 [3] [4]
    [.conn 8 (some [5]) ⟨createRegistrationMsg (ascii "bob@twitter") (some [9]), false⟩, .dm sampleDM (some [6]) .works (some 12), .update]
    [] ⟨d₀, [], []⟩ _ (by decide) h0
  refine ⟨w, hw, ?_⟩
  intro hl k hk
  have reads : ∀ n k, Asks asciiText sampleDM.sender sampleDM.text n k → n = ascii "bob@twitter" ∧ k = [1, 2] := by
    intro n k ha
    obtain ⟨hu, _⟩ := (asks_iff _ _ _ _ _).mp ha
    rw [sampleDM_reads] at hu
    cases hu
    exact ⟨rfl, rfl⟩
  have mem : ∀ m sent, (m, sent) ∈ messages [BotEv.conn 8 (some [5]) ⟨createRegistrationMsg (ascii "bob@twitter") (some [9]), false⟩,
      .dm sampleDM (some [6]) .works (some 12), .update] → m = sampleDM := by
    intro m sent hm
    simp only [messages, List.mem_cons, List.not_mem_nil, or_false, Prod.mk.injEq] at hm
    exact hm.1
  obtain ⟨m, sent, hm, ha⟩ := C71_owner Crypto.toy asciiText [⟨7, true⟩, ⟨8, false⟩] (by decide) sampleBot (by decide) 5 [1] [2] 10 [3] [4] d₀ hnew _
    (by intro rnd c hm; simp [sampleBot] at hm) (by decide) w hw (ascii "bob@twitter") [ascii "bob@twitter"]
    (by
      intro m sent n k hm ha
      rw [mem m sent hm] at ha
      rw [(reads n k ha).1]; simp)
    (by
      intro a ha b hb _
      have : ∀ x ∈ [ascii "bob@twitter", ascii "bob@twitter"], x = ascii "bob@twitter" := by simp
      rw [this a ha, this b hb])
    (.keyLookup ⟨ascii "bob@twitter"⟩) rfl (fun _ _ e => by cases e) w.dir resp (by simp [Directory.step, hl]) k hk
  rw [mem m sent hm] at ha
  exact (reads _ k ha).2

/-- C71. COUNTEREXAMPLE to "one account, one name": the bot accepts from one account names that differ in letter case, and for the directory they
are different names, each with its own key. -/
theorem C71_case_counterexample : ∃ sender text₁ text₂ n₁ n₂ k₁ k₂, Asks asciiText sender text₁ n₁ k₁ ∧ Asks asciiText sender text₂ n₂ k₂ ∧ n₁ ≠ n₂ ∧
    k₁ ≠ k₂ ∧ asciiText.equalFold n₁ n₂ = true := by
  have h : unmarshalRequest goJson (createRegistrationMsg (ascii "BOB@twitter") (some [3])) = some ⟨0, .registration ⟨ascii "BOB@twitter", [3]⟩⟩ := by
    decide +kernel
  exact ⟨ascii "Bob", _, _, _, _, _, _, sampleDM_asks, (asks_iff _ _ _ _ _).mpr ⟨h, by decide +kernel⟩, by decide +kernel, by decide, by decide +kernel⟩

/-! ### C71: the old messages -/

/-- C71. Whatever Twitter does: when `deleteOldDMs` returns, no message has been added, and either none is left or some request for the list of
messages has failed. -/
theorem C71_old_messages (fuel : Nat) : ∀ (tw : Nat → TwRound) (box rest : List Nat), deleteOldDMs fuel tw box = some rest →
    (∀ id ∈ rest, id ∈ box) ∧ (rest = [] ∨ ∃ k < fuel, (tw k).lists = false) := by
  induction fuel with
  | zero => intro tw box rest h; exact nomatch h
  | succ fuel ih =>
    intro tw box rest h
    simp only [deleteOldDMs] at h
    generalize hdms : (if (tw 0).lists = true then box.take 200 else []) = dms at h
    by_cases hd : dms = []
    · rw [if_pos hd] at h
      cases h
      subst hdms
      refine ⟨fun _ h => h, ?_⟩
      cases hl : (tw 0).lists with
      | false => exact .inr ⟨0, by omega, hl⟩
      | true =>
        rw [hl, if_pos rfl] at hd
        exact .inl (by simpa using hd)
    · rw [if_neg hd] at h
      obtain ⟨h1, h2⟩ := ih _ _ rest h
      refine ⟨fun id hid => (List.mem_filter.mp (h1 id hid)).1, ?_⟩
      rcases h2 with h2 | ⟨k, hk, h2⟩
      · exact .inl h2
      · exact .inr ⟨k + 1, by omega, h2⟩

theorem filter_drop_length (l : List Nat) (n : Nat) (f : Nat → Bool) (h : ∀ x ∈ l.take n, f x = false) : (l.filter f).length ≤ l.length - n := by
  have e : l.filter f = (l.take n).filter f ++ (l.drop n).filter f := by rw [← List.filter_append, List.take_append_drop]
  have h0 : (l.take n).filter f = [] := List.filter_eq_nil_iff.mpr fun x hx => by simp [h x hx]
  rw [e, h0, List.nil_append, ← List.length_drop]
  exact List.length_filter_le _ _

/-- C71. If Twitter does what it is asked, all old messages are destroyed, 200 at a time. -/
theorem C71_old_messages_gone (box : List Nat) (tw : Nat → TwRound) (hl : ∀ k, (tw k).lists = true) (hdes : ∀ k, ∀ id ∈ box, (tw k).destroys id = true) :
    deleteOldDMs ((box.length + 199) / 200 + 1) tw box = some [] := by
  have key : ∀ (n fuel : Nat) (box : List Nat) (tw : Nat → TwRound), box.length < n → (∀ k, (tw k).lists = true) →
      (∀ k, ∀ id ∈ box, (tw k).destroys id = true) → (box.length + 199) / 200 + 1 ≤ fuel → deleteOldDMs fuel tw box = some [] := by
    intro n
    induction n with
    | zero => intro fuel box tw h; omega
    | succ n ih =>
      intro fuel box tw hn hl hdes hf
      obtain ⟨fuel, rfl⟩ : ∃ f, fuel = f + 1 := ⟨fuel - 1, by omega⟩
      simp only [deleteOldDMs, hl 0, if_true]
      cases box with
      | nil => simp
      | cons x xs =>
        rw [if_neg (by simp)]
        have hlen : ((x :: xs).filter fun id => !(((x :: xs).take 200).contains id && (tw 0).destroys id)).length ≤ (x :: xs).length - 200 := by
          refine filter_drop_length _ _ _ ?_
          intro id hid
          have hc : ((x :: xs).take 200).contains id = true := by
            rw [List.contains_iff_mem]; exact hid
          simp only [hc, hdes 0 id (List.mem_of_mem_take hid), Bool.and_self, Bool.not_true]
        refine ih fuel _ (fun k => tw (k + 1)) ?_ (fun k => hl (k + 1)) (fun k id hid => hdes (k + 1) id (List.mem_filter.mp hid).1) ?_
        · simp only [List.length_cons] at hlen hn ⊢; omega
        · simp only [List.length_cons] at hlen hf ⊢; omega
  exact key _ _ box tw (Nat.lt_succ_self _) hl hdes (Nat.le_refl _)

/-- 450 old messages are gone after four rounds -/
example : deleteOldDMs 4 (fun _ => ⟨true, fun _ => true⟩) (List.range 450) = some [] := by
  have h := C71_old_messages_gone (List.range 450) (fun _ => ⟨true, fun _ => true⟩) (fun _ => rfl) (fun _ _ _ => rfl)
  rw [List.length_range] at h
  exact h

/-- C71. COUNTEREXAMPLE to "the bot starts": if Twitter refuses to destroy some message, `deleteOldDMs` never returns, so `NewTwitterBot` does not
either. -/
theorem C71_stuck_counterexample (fuel : Nat) : ∀ (tw : Nat → TwRound) (box : List Nat) (id : Nat), id ∈ box → (∀ k, (tw k).lists = true) →
    (∀ k, (tw k).destroys id = false) → deleteOldDMs fuel tw box = none := by
  induction fuel with
  | zero => intros; rfl
  | succ fuel ih =>
    intro tw box id hid hl hdes
    simp only [deleteOldDMs, hl 0, if_true]
    rw [if_neg (by
      intro e
      have : box.take 200 ≠ [] := by
        cases box with
        | nil => exact nomatch hid
        | cons x xs => simp
      exact this e)]
    exact ih _ _ id (List.mem_filter.mpr ⟨hid, by simp [hdes 0]⟩) (fun k => hl (k + 1)) (fun k => hdes (k + 1))

/-- C71. COUNTEREXAMPLE to "all old messages are destroyed": if Twitter does not list the messages, they stay, and the bot says that it deleted
them. -/
theorem C71_list_counterexample (tw : Nat → TwRound) (box : List Nat) (h : (tw 0).lists = false) : deleteOldDMs 1 tw box = some box := by
  simp [deleteOldDMs, h]

end Coniks.Props
