import Verif.Spec.Bot
import Verif.Proofs.Json.ReadBack
import Verif.Proofs.DirShown
import Verif.Proofs.Json.Prefix
import Verif.Props.App
import Verif.Props.Server
import Verif.Proofs.Wire
/-
The bot and its key server.
-/
namespace Coniks
open Json Spec Props

/-- an object in front of other text is read as what the whole is read as -/
theorem parse_append_obj (a r : Bytes) (ms : List (Bytes × JVal)) (w : JVal) (h : parse a = some (.obj ms)) (hw : parse (a ++ r) = some w) :
    w = .obj ms := by
  unfold parse at h hw
  cases hp : pValue (2 * a.length + 2) a with
  | none => rw [hp] at h; exact nomatch h
  | some x =>
    obtain ⟨v, t⟩ := x
    rw [hp] at h
    dsimp only at h
    split at h
    · cases h
      have := (p_append _).1 _ _ _ hp (.inr rfl) (2 * (a ++ r).length + 2) r (by simp; omega)
      rw [this] at hw
      dsimp only at hw
      split at hw
      · cases hw; rfl
      · exact nomatch hw
    · exact nomatch h

theorem unmarshal_parse (a b : Bytes) (h : parse a = parse b) : unmarshalRequest goJson a = unmarshalRequest goJson b := by
  unfold unmarshalRequest
  show (((parse a).bind _).map _).bind _ = (((parse b).bind _).map _).bind _
  rw [h]

/-- the server never reads another request from the beginning of a message than the bot from all of it -/
theorem request_prefix (msg : Bytes) (n : Nat) (q q' : Request) (h : unmarshalRequest goJson msg = some q)
    (h' : unmarshalRequest goJson (msg.take n) = some q') : q' = q := by
  obtain ⟨ms, hp, _⟩ := request_reads _ _ h
  obtain ⟨ms', hp', _⟩ := request_reads _ _ h'
  have e := parse_append_obj (msg.take n) (msg.drop n) ms' (.obj ms) hp' (by rw [List.take_append_drop]; exact hp)
  have := unmarshal_parse msg (msg.take n) (by rw [hp, hp', e])
  rw [h, h'] at this
  exact (Option.some.inj this).symm

theorem handle_fst (X : Text) (u msg : Bytes) (s : Bytes → Option Bytes) :
    (handleRegistration goJson X u msg s).1 = (handleRegistration goJson X u msg fun _ => none).1 := by
  by_cases h : ∃ r, unmarshalRequest goJson msg = some ⟨0, .registration r⟩ ∧ X.equalFold (X.toLower u ++ atTwitter) r.username = true
  · rw [((C49_forwards_iff goJson X u msg s).1 h).1, ((C49_forwards_iff goJson X u msg _).1 h).1]
  · rw [(C49_forwards_iff goJson X u msg s).2 h, (C49_forwards_iff goJson X u msg _).2 h]

/-- what the server does with a message that holds a registration -/
theorem exchange_registration (C : Crypto) (perms : Nat → Int → Bool) (rnd : Option Bytes) (d : Directory) (addr : Nat) (msg : Bytes)
    (r : RegistrationRequest) (hu : unmarshalRequest goJson msg = some ⟨0, .registration r⟩) :
    exchange C perms rnd d addr msg = some (d, clientRead (marshalResponse (newErrorResponse ErrMalformedMessage))) ∨
    (perms addr 0 = true ∧ exchange C perms rnd d addr msg = (d.register C rnd r).map fun x => (x.1, clientRead (marshalResponse x.2))) := by
  obtain ⟨buf, hbuf, hdec⟩ : ∃ buf, (Conn.mk msg false).read = some buf ∧ ∀ q, unmarshalRequest goJson buf = some q → q = ⟨0, .registration r⟩ := by
    by_cases hl : 8192 ≤ msg.length
    · exact ⟨msg.take 8192, by simp [Conn.read, hl], fun q hq => request_prefix msg 8192 _ q hu hq⟩
    · refine ⟨msg, by simp [Conn.read]; omega, fun q hq => ?_⟩
      rw [hu] at hq; cases hq; rfl
  unfold exchange
  by_cases hp : ∃ q, unmarshalRequest goJson buf = some q ∧ perms addr q.type = true
  · obtain ⟨q, hq, hpq⟩ := hp
    have := hdec q hq
    subst this
    right
    refine ⟨hpq, ?_⟩
    rw [C46_permitted C goJson perms rnd d addr _ buf hbuf _ hq hpq, handle_reg, Option.map_map]
    rfl
  · left
    rw [C46_refused C goJson perms rnd d addr _ buf hbuf (fun q hq => by
      cases hb : perms addr q.type with
      | false => rfl
      | true => exact absurd ⟨q, hq, hb⟩ hp)]
    rfl

/-- one direct message is at most one registration, and one that its sender asks for -/
theorem onDM_ops (C : Crypto) (X : Text) (perms : Nat → Int → Bool) (conf : BotConf) (rnd : Option Bytes) (link : Link) (sent : Option Nat)
    (d d' : Directory) (dm : DM) (out : BotOut) (h : onDirectMessage C X perms conf rnd link sent d dm = some (d', out)) :
    d' = d ∨ ∃ r resp, Asks X dm.sender dm.text r.username r.key ∧ X.equalFold dm.sender conf.handle = false ∧
      d.register C rnd r = some (d', resp) := by
  unfold onDirectMessage at h
  split at h
  · cases h; exact .inl rfl
  · rename_i hb
    split at h
    · rename_i hp
      obtain ⟨msg, hm⟩ := List.isPrefixOf_iff_prefix.mp hp
      have hd : dm.text.drop messagePrefix.length = msg := by rw [← hm]; simp
      rw [hd] at h
      obtain ⟨⟨d1, a⟩, h1, e⟩ := Option.map_eq_some_iff.mp h
      simp only [Prod.mk.injEq] at e
      obtain ⟨rfl, _⟩ := e
      clear h
      unfold handleWith at h1
      by_cases hf : ∃ r, unmarshalRequest goJson msg = some ⟨0, .registration r⟩ ∧ X.equalFold (X.toLower dm.sender ++ atTwitter) r.username = true
      · rw [((C49_forwards_iff goJson X dm.sender msg _).1 hf).1] at h1
        dsimp only at h1
        obtain ⟨⟨d2, a2⟩, h, e⟩ := Option.map_eq_some_iff.mp h1
        clear h1
        simp only [Prod.mk.injEq] at e
        obtain ⟨rfl, _⟩ := e
        obtain ⟨r, hu, hx⟩ := hf
        simp only [sendRequestToCONIKS] at h
        have key : ∀ y, exchange C perms rnd d conf.addr msg = some (d2, y) → d2 = d ∨ ∃ resp, d.register C rnd r = some (d2, resp) := by
          intro y hy
          rcases exchange_registration C perms rnd d conf.addr msg r hu with he | ⟨_, he⟩
          · rw [he] at hy; cases hy; exact .inl rfl
          · rw [he] at hy
            obtain ⟨⟨d3, resp⟩, h3, e⟩ := Option.map_eq_some_iff.mp hy
            simp only [Prod.mk.injEq] at e
            obtain ⟨rfl, _⟩ := e
            exact .inr ⟨resp, h3⟩
        have fin : (d2 = d ∨ ∃ resp, d.register C rnd r = some (d2, resp)) → d2 = d ∨ ∃ r resp, Asks X dm.sender dm.text r.username r.key ∧
            X.equalFold dm.sender conf.handle = false ∧ d.register C rnd r = some (d2, resp) := by
          rintro (h | ⟨resp, h⟩)
          · exact .inl h
          · obtain ⟨ms, hp, hs⟩ := request_reads _ _ hu
            exact .inr ⟨r, resp, ⟨hx, msg, ms, hm.symm, hp, hs⟩, by simpa using hb, h⟩
        cases link with
        | notSent => cases h; exact .inl rfl
        | works =>
          obtain ⟨⟨d3, y⟩, h3, e⟩ := Option.map_eq_some_iff.mp h
          simp only [Prod.mk.injEq] at e
          obtain ⟨rfl, _⟩ := e
          exact fin (key y h3)
        | noAnswer =>
          obtain ⟨⟨d3, y⟩, h3, e⟩ := Option.map_eq_some_iff.mp h
          simp only [Prod.mk.injEq] at e
          obtain ⟨rfl, _⟩ := e
          exact fin (key y h3)
      · rw [(C49_forwards_iff goJson X dm.sender msg _).2 hf] at h1
        dsimp only at h1
        cases h1; exact .inl rfl
    · cases h; exact .inl rfl

/-- what a message asks for is what the bot reads from it -/
theorem asks_iff (X : Text) (sender msg n k : Bytes) : Asks X sender (messagePrefix ++ msg) n k ↔
    (unmarshalRequest goJson msg = some ⟨0, .registration ⟨n, k⟩⟩ ∧ X.equalFold (X.toLower sender ++ atTwitter) n = true) := by
  constructor
  · rintro ⟨hx, msg', ms, e, hp, hs⟩
    have := List.append_cancel_left e
    subst this
    exact ⟨(request_iff _ _).mpr ⟨ms, hp, hs⟩, hx⟩
  · rintro ⟨hu, hx⟩
    obtain ⟨ms, hp, hs⟩ := request_reads _ _ hu
    exact ⟨hx, msg, ms, rfl, hp, hs⟩

theorem onDM_due (C : Crypto) (X : Text) (perms : Nat → Int → Bool) (conf : BotConf) (rnd : Option Bytes) (link : Link) (sent : Option Nat)
    (d : Directory) (dm : DM) (msg : Bytes) (hm : dm.text = messagePrefix ++ msg) (hown : X.equalFold dm.sender conf.handle = false) :
    onDirectMessage C X perms conf rnd link sent d dm = (handleWith C X perms conf rnd link d dm.sender msg).map fun x =>
      (x.1, repliedWith dm sent x.2) := by
  have hpre : messagePrefix.isPrefixOf dm.text = true := List.isPrefixOf_iff_prefix.mpr ⟨msg, hm.symm⟩
  have hdrop : dm.text.drop messagePrefix.length = msg := by rw [hm]; simp
  unfold onDirectMessage
  rw [if_neg (by simp [hown]), if_pos hpre, hdrop]
  rfl

theorem handleWith_refuse (C : Crypto) (X : Text) (perms : Nat → Int → Bool) (conf : BotConf) (rnd : Option Bytes) (link : Link)
    (d : Directory) (u msg : Bytes)
    (h : ¬ ∃ r, unmarshalRequest goJson msg = some ⟨0, .registration r⟩ ∧ X.equalFold (X.toLower u ++ atTwitter) r.username = true) :
    handleWith C X perms conf rnd link d u msg = some (d, marshalResponse (newErrorResponse ErrMalformedMessage)) := by
  unfold handleWith
  rw [(C49_forwards_iff goJson X u msg _).2 h]
  rfl

theorem handleWith_forward (C : Crypto) (X : Text) (perms : Nat → Int → Bool) (conf : BotConf) (rnd : Option Bytes) (link : Link)
    (d : Directory) (u msg : Bytes)
    (h : ∃ r, unmarshalRequest goJson msg = some ⟨0, .registration r⟩ ∧ X.equalFold (X.toLower u ++ atTwitter) r.username = true) :
    handleWith C X perms conf rnd link d u msg = (sendRequestToCONIKS C perms rnd d conf.addr link msg).map fun x =>
      (x.1, x.2.getD (marshalResponse (newErrorResponse ErrDirectory))) := by
  unfold handleWith
  rw [((C49_forwards_iff goJson X u msg _).1 h).1]
  dsimp only
  congr 1
  funext x
  rw [((C49_forwards_iff goJson X u msg _).1 h).2]
  cases x.2 <;> rfl

/-- a run of the bot's world is a history of the directory -/
theorem bot_ops (C : Crypto) (X : Text) (addrs : List Address) (hd : (addrs.map Address.ptr).Nodup) (conf : BotConf)
    (only : ∀ a ∈ addrs, a.allowRegistration = true → a.ptr = conf.addr) (t0 : UInt64) (sk vk : Bytes) (size : Nat) (r₁ r₂ : Bytes) :
    ∀ (es : List BotEv) (pre : List DirOp) (w w' : BotWorld) (log : List STR), dirAfter C t0 sk vk size r₁ r₂ pre = some (w.dir, log) →
    (∀ rnd c, BotEv.conn conf.addr rnd c ∉ es) → w.run C X (permsMap addrs) conf es = some w' →
    ∃ ops log', dirAfter C t0 sk vk size r₁ r₂ (pre ++ ops) = some (w'.dir, log') ∧ dirUpdates ops = botUpdates es ∧
      ∀ rnd r, DirOp.register rnd r ∈ ops → ∃ m sent, (m, sent) ∈ messages es ∧ Asks X m.sender m.text r.username r.key := by
  intro es
  induction es with
  | nil =>
    intro pre w w' log h _ hr
    cases hr
    exact ⟨[], log, by rw [List.append_nil]; exact h, rfl, fun _ _ h => (nomatch h)⟩
  | cons e es ih =>
    intro pre w w' log h hpriv hr
    simp only [BotWorld.run] at hr
    obtain ⟨w1, h1, hr⟩ := Option.bind_eq_some_iff.mp hr
    have hpriv' : ∀ rnd c, BotEv.conn conf.addr rnd c ∉ es := fun rnd c hm => hpriv rnd c (List.mem_cons_of_mem _ hm)
    have one : ∀ op resp, w.dir.step C op = some (w1.dir, resp) →
        ∃ log1, dirAfter C t0 sk vk size r₁ r₂ (pre ++ [op]) = some (w1.dir, log1) := by
      intro op resp hs
      refine ⟨log ++ op.issued w1.dir, ?_⟩
      rw [dirAfter_append, h, Option.bind_some]
      simp only [Directory.runLog, hs, Option.bind_some]
    have mem : ∀ p : DM × Option Nat, p ∈ messages es → p ∈ messages (e :: es) := by
      intro p hp
      cases e with
      | dm m rnd link sent => exact List.mem_cons_of_mem _ hp
      | conn _ _ _ => exact hp
      | update => exact hp
      | setPolicies _ => exact hp
    -- the directory stays
    have stay : w1.dir = w.dir → botUpdates (e :: es) = botUpdates es → ∃ ops log', dirAfter C t0 sk vk size r₁ r₂ (pre ++ ops) = some (w'.dir, log') ∧
        dirUpdates ops = botUpdates (e :: es) ∧
        ∀ rnd r, DirOp.register rnd r ∈ ops → ∃ m sent, (m, sent) ∈ messages (e :: es) ∧ Asks X m.sender m.text r.username r.key := by
      intro hs hu
      obtain ⟨ops, log', a, b, c⟩ := ih pre w1 w' log (by rw [hs]; exact h) hpriv' hr
      refine ⟨ops, log', a, by rw [hu]; exact b, fun rnd r hm => ?_⟩
      obtain ⟨m, sent, hm, ha⟩ := c rnd r hm
      exact ⟨m, sent, mem _ hm, ha⟩
    -- one operation
    have go : ∀ op resp, w.dir.step C op = some (w1.dir, resp) → botUpdates (e :: es) = dirUpdates [op] + botUpdates es →
        (∀ rnd r, op = .register rnd r → ∃ m sent, (m, sent) ∈ messages (e :: es) ∧ Asks X m.sender m.text r.username r.key) →
        ∃ ops log', dirAfter C t0 sk vk size r₁ r₂ (pre ++ ops) = some (w'.dir, log') ∧
        dirUpdates ops = botUpdates (e :: es) ∧
        ∀ rnd r, DirOp.register rnd r ∈ ops → ∃ m sent, (m, sent) ∈ messages (e :: es) ∧ Asks X m.sender m.text r.username r.key := by
      intro op resp hs hu hreg
      obtain ⟨log1, h1⟩ := one op resp hs
      obtain ⟨ops, log', a, b, c⟩ := ih (pre ++ [op]) w1 w' log1 h1 hpriv' hr
      refine ⟨op :: ops, log', by rw [← a]; simp, by rw [dirUpdates_cons, b, hu], ?_⟩
      intro rnd r hm
      rcases List.mem_cons.mp hm with e | hm
      · exact hreg rnd r e.symm
      · obtain ⟨m, sent, hm, ha⟩ := c rnd r hm
        exact ⟨m, sent, mem _ hm, ha⟩
    cases e with
    | dm m rnd link sent =>
      obtain ⟨⟨d1, out⟩, hx, e⟩ := Option.map_eq_some_iff.mp h1
      have hd1 : w1.dir = d1 := by rw [← e]
      rcases onDM_ops C X _ conf rnd link sent w.dir d1 m out hx with hs | ⟨r, resp, ha, _, hreg⟩
      · exact stay (by rw [hd1, hs]) rfl
      · refine go (.register rnd r) (some resp) (by rw [hd1]; simp only [Directory.step, hreg, Option.map_some]) (by simp [botUpdates, dirUpdates]) ?_
        intro rnd' r' e
        cases e
        exact ⟨m, sent, List.mem_cons_self .., ha⟩
    | conn addr rnd c =>
      obtain ⟨⟨d1, resp⟩, hx, e⟩ := Option.map_eq_some_iff.mp h1
      have hd1 : w1.dir = d1 := by rw [← e]
      refine stay ?_ rfl
      rw [hd1]
      apply Classical.byContradiction
      intro hne
      obtain ⟨⟨a, ha, hp, hal⟩, _⟩ := C46_writes C goJson addrs hd rnd w.dir d1 addr c resp hx hne
      have : addr = conf.addr := by rw [← hp]; exact only a ha hal
      subst this
      exact hpriv rnd c (List.mem_cons_self ..)
    | update =>
      cases h1
      exact go .update none rfl (by simp [botUpdates, dirUpdates]; omega) (fun _ _ e => by cases e)
    | setPolicies t =>
      cases h1
      exact go (.setPolicies t) none rfl (by simp [botUpdates, dirUpdates]) (fun _ _ e => by cases e)

theorem regNames_mem (ops : List DirOp) (n : Bytes) (h : n ∈ regNames ops) : ∃ rnd r, DirOp.register rnd r ∈ ops ∧ r.username = n := by
  induction ops with
  | nil => exact nomatch h
  | cons op ops ih =>
    rw [regNames_cons] at h
    rcases List.mem_append.mp h with h | h
    · cases op with
      | register rnd r =>
        simp only [regNames, List.mem_singleton] at h
        exact ⟨rnd, r, List.mem_cons_self .., h.symm⟩
      | _ => exact nomatch h
    · obtain ⟨rnd, r, hm, e⟩ := ih h
      exact ⟨rnd, r, List.mem_cons_of_mem _ hm, e⟩

end Coniks
