import Verif.Model.Files
import Verif.Model.Bot
import Verif.Props.Server
/-
C48 - C50, C58 - C60: epoch timer, registration bot, files, policy reload.
-/
namespace Coniks.Props
open Coniks Spec

/-! ### C48 -/

/-- the int64 duration of a deadline that fits -/
theorem duration_of_small (t : UInt64) (h : t.toNat ≤ 9223372036) :
    (newEpochTimer t).duration.toInt = t.toNat * 1000000000 := by
  have e : t.toInt64 = Int64.ofInt t.toNat := by
    conv => lhs; rw [← UInt64.ofNat_toNat (x := t)]
    rfl
  have e2 : (1000000000 : Int64) = Int64.ofInt 1000000000 := by decide
  unfold newEpochTimer
  rw [e, e2, ← Int64.ofInt_mul, Int64.toInt_ofInt_of_le (by simp; omega) (by simp; omega)]

/-- C48. The updates of one server are apart by the timer's duration plus what scheduling, locking and the updates themselves take:
never less, and exactly the duration if these take no time. -/
theorem C48_intervals (t : EpochTimer) (rounds : List Round) : ∀ (armed : Int) (k : Nat) (u v : Int) (r r' : Round),
    (updateTimes t armed rounds)[k]? = some u → (updateTimes t armed rounds)[k + 1]? = some v →
    rounds[k]? = some r → rounds[k + 1]? = some r' → v = u + max 0 t.duration.toInt + r.reset + r'.late := by
  induction rounds with
  | nil => intro armed k u v r r' h; simp [updateTimes] at h
  | cons r0 rs ih =>
    intro armed k u v r r' hu hv hr hr'
    cases k with
    | zero =>
      cases rs with
      | nil => simp at hr'
      | cons r1 rs =>
        simp [updateTimes] at hu hv hr hr'
        subst hr hr' hu
        omega
    | succ k =>
      simp only [updateTimes, List.getElem?_cons_succ] at hu hv hr hr'
      exact ih _ k u v r r' hu hv hr hr'

/-- C48, PARTIAL: after any history of a server whose configuration gives the same deadline (of at most 292 years) twice, and whose
policy reloads never change it, the timer's duration is the epoch deadline announced in the latest STR.
Missing: the unrestricted claim is false, see the three counterexamples below. -/
theorem C48_timer_partial (C : Crypto) (conf : ServerConfig) (r₁ r₂ : Bytes) (s : Server)
    (hs : newServer C conf (some r₁) (some r₂) = some s) (heq : conf.epochDeadline = conf.policiesDeadline)
    (hsmall : conf.policiesDeadline.toNat ≤ 9223372036) (ops : List DirOp)
    (hre : ∀ t, DirOp.setPolicies t ∈ ops → t = conf.policiesDeadline) (d : Directory) (log : List STR)
    (h : s.dir.runLog C [s.dir.pad.latest] ops = some (d, log)) :
    s.timer.duration.toInt = d.epochDeadline.toNat * 1000000000 := by
  unfold newServer at hs
  obtain ⟨d0, hd0, rfl⟩ := Option.map_eq_some_iff.mp hs
  have hdir : dirAfter C conf.policiesDeadline conf.signKey conf.vrfKey conf.historyLength r₁ r₂ ops = some (d, log) := by
    simp only [dirAfter, hd0, Option.bind_some]; exact h
  -- every STR announces the deadline
  have key : ∀ ops' (d d' : Directory) (log log' : List STR) (P : Policies) (T : UInt64) (v : Bytes), P = newPolicies T v →
      (∀ t, DirOp.setPolicies t ∈ ops' → t = T) → d.pad.latest.ad = P → d.pad.ad = P → d.policies = P →
      d.runLog C log ops' = some (d', log') → d'.pad.latest.ad = P := by
    intro ops'
    induction ops' with
    | nil =>
      intro d d' log log' P T v _ _ h1 _ _ hr
      simp only [Directory.runLog, Option.some.injEq, Prod.mk.injEq] at hr
      rw [← hr.1]; exact h1
    | cons op ops' ih =>
      intro d d' log log' P T v hP hT h1 h2 h3 hr
      simp only [Directory.runLog] at hr
      obtain ⟨⟨d1, r⟩, hst, hr⟩ := Option.bind_eq_some_iff.mp hr
      have hT' : ∀ t, DirOp.setPolicies t ∈ ops' → t = T := fun t ht => hT t (List.mem_cons_of_mem _ ht)
      obtain ⟨p1, p2, p3⟩ := step_policies hst
      have h4 : d1.policies = P := by
        rw [p1 T v (h3.trans hP), hP]
        have : lastDeadline T [op] = T := by
          cases op <;> first | rfl | exact hT _ List.mem_cons_self
        rw [this]
      by_cases hu : op = .update
      · obtain ⟨e1, e2, e3⟩ := p3 hu
        subst hu
        exact ih d1 d' _ log' P T v hP hT' (by rw [e3]; exact h2) (by rw [e2]; exact h3) h4 hr
      · obtain ⟨e1, e2⟩ := p2 hu
        exact ih d1 d' _ log' P T v hP hT' (by rw [e2]; exact h1) (by rw [e1]; exact h2) h4 hr
  have hfin : d.epochDeadline = conf.policiesDeadline := by
    obtain ⟨d0', h0', _, q1, q2, q3, _⟩ := new_dir_inv C conf.policiesDeadline conf.signKey conf.vrfKey conf.historyLength r₁ r₂ []
    rw [hd0] at h0'
    cases h0'
    have := key ops d0 d _ log _ conf.policiesDeadline _ rfl hre q3 q2 q1 h
    simp only [Directory.epochDeadline, this]; rfl
  rw [hfin]
  simp only
  rw [heq]
  exact duration_of_small _ hsmall

/-- with a reload that keeps the deadline, a registration and two epochs -/
example (s : Server) (hs : newServer Crypto.toy ⟨10, 60, [1], [2], [⟨7, true⟩], 60⟩ (some [3]) (some [4]) = some s) (d : Directory) (log : List STR)
    (h : s.dir.runLog Crypto.toy [s.dir.pad.latest] [.setPolicies 60, .register (some [5]) ⟨[0x61], [1]⟩, .update, .update] = some (d, log)) :
    s.timer.duration.toInt = d.epochDeadline.toNat * 1000000000 :=
  C48_timer_partial Crypto.toy ⟨10, 60, [1], [2], [⟨7, true⟩], 60⟩ [3] [4] s hs rfl (by decide) _ (by
    intro t ht
    simp only [List.mem_cons, List.not_mem_nil, or_false, reduceCtorEq, DirOp.setPolicies.injEq] at ht
    exact ht) d log h

/-- C48 is false for every server configured by `NewConfig` (as `coniksserver init` does): the timer's duration is 0 whatever the
policies announce, so the updates follow each other without any pause. -/
theorem C48_newConfig_counterexample (C : Crypto) (addrs : List Address) (n : Nat) (deadline : UInt64) (sk vk r₁ r₂ : Bytes) :
    ∃ s, newServer C (newConfig addrs n deadline sk vk) (some r₁) (some r₂) = some s ∧ s.dir.epochDeadline = deadline ∧
      s.timer.duration = 0 ∧ ∀ now k, updateTimes s.timer now (List.replicate k ⟨0, 0⟩) = List.replicate k now := by
  obtain ⟨d0, h0, _, q1, q2, q3, _⟩ := new_dir_inv C deadline sk vk n r₁ r₂ []
  refine ⟨_, by simp only [newServer, newConfig, h0]; rfl, ?_, rfl, ?_⟩
  · simp_all [Directory.epochDeadline, newPolicies]
  · intro now k
    induction k with
    | zero => rfl
    | succ k ih =>
      simp only [List.replicate_succ, updateTimes]
      have : (max 0 (newEpochTimer 0).duration.toInt) = 0 := by decide
      simp only [newConfig] at ih ⊢
      simpa [this] using ih

/-- C48 is false after a reload that changes the deadline from 60 to 5 seconds: two epochs later the STR announces 5 seconds, and
the timer, which no reload touches, still has a duration of 60 seconds. -/
theorem C48_reload_counterexample (C : Crypto) (conf : ServerConfig) (r₁ r₂ : Bytes) (h60 : conf.policiesDeadline = 60)
    (h60' : conf.epochDeadline = 60) :
    ∃ s d log, newServer C conf (some r₁) (some r₂) = some s ∧ s.timer.duration.toInt = 60 * 1000000000 ∧
      s.dir.runLog C [s.dir.pad.latest] [.setPolicies 5, .update, .update] = some (d, log) ∧ d.epochDeadline = 5 := by
  obtain ⟨d0, h0, _⟩ := new_dir_inv C conf.policiesDeadline conf.signKey conf.vrfKey conf.historyLength r₁ r₂ []
  refine ⟨_, _, _, by simp only [newServer, h0]; rfl, ?_, rfl, ?_⟩
  · simp only [h60']; decide
  · have e : ∀ x : Directory, (x.update C).pad.latest.ad = x.pad.ad ∧ (x.update C).pad.ad = x.policies ∧
        (x.update C).policies = x.policies := by
      intro x
      obtain ⟨_, _, p3⟩ := step_policies (C := C) (d := x) (op := .update) (d' := x.update C) (r := none) rfl
      exact ⟨(p3 rfl).2.2, (p3 rfl).2.1, rfl⟩
    simp only [Directory.epochDeadline]
    rw [(e _).1, (e _).2.1]; rfl

example : ∃ s d log, newServer Crypto.toy ⟨10, 60, [1], [2], [⟨7, true⟩], 60⟩ (some [3]) (some [4]) = some s ∧ s.timer.duration.toInt = 60 * 1000000000 ∧
    s.dir.runLog Crypto.toy [s.dir.pad.latest] [.setPolicies 5, .update, .update] = some (d, log) ∧ d.epochDeadline = 5 :=
  C48_reload_counterexample Crypto.toy ⟨10, 60, [1], [2], [⟨7, true⟩], 60⟩ [3] [4] rfl rfl

/-- C48 is false for deadlines of more than 292 years: the nanoseconds overflow and the timer fires at once. -/
theorem C48_overflow_counterexample : (newEpochTimer 9223372037).duration.toInt < 0 := by decide

/-- a configuration with both deadlines equal meets the hypotheses of `C48_timer_partial` -/
example : ∃ s, newServer Crypto.toy ⟨10, 60, [1], [2], [⟨7, true⟩], 60⟩ (some [3]) (some [4]) = some s ∧
    s.timer.duration.toInt = 60 * 1000000000 := by
  obtain ⟨d0, h0, _⟩ := new_dir_inv Crypto.toy 60 [1] [2] 10 [3] [4] []
  exact ⟨_, by simp only [newServer, h0]; rfl, by show (newEpochTimer 60).duration.toInt = _; decide⟩

/-- three updates of a 60 second timer with some delays -/
example : updateTimes (newEpochTimer 60) 0 [⟨1, 2⟩, ⟨3, 4⟩, ⟨5, 6⟩] = [60000000001, 120000000006, 180000000015] := by decide

/-! ### C58: policy reload -/

/-- C58, PARTIAL. A reload (SIGUSR2) of a configuration file that cannot be read or decoded, or whose key files are missing or have
the wrong size, changes nothing; otherwise it changes only the deadline that later STRs announce. Missing: a file without
`[policies]` or `[logger]` table, or with an address that sets nothing, crashes the server, see below (`conf.logger` also says that every address
sets something). -/
theorem C58_reload_partial (C : Crypto) (d : Directory) (file : Option LoadedConf)
    (hsane : ∀ conf, file = some conf → conf.policies.isSome ∧ conf.logger = true) :
    ∃ d', d.updatePolicies file = some d' ∧
      (d' = d ∨ ∃ conf p sk vk, file = some conf ∧ conf.policies = some p ∧ p.signKey = some sk ∧ sk.length = 64 ∧
        p.vrfKey = some vk ∧ vk.length = 64 ∧ d' = d.setPolicies p.epochDeadline) ∧
      d'.pad = d.pad ∧ d'.tbs = d.tbs ∧ d'.policies.vrfPublicKey = d.policies.vrfPublicKey ∧ d'.latestSTR = d.latestSTR ∧
      (∀ n rnd k, d'.keyLookup C n = d.keyLookup C n ∧ (d'.register C rnd k).map (·.2) = (d.register C rnd k).map (·.2)) := by
  have hreg : ∀ (t : UInt64) rnd k, ((d.setPolicies t).register C rnd k).map (·.2) = (d.register C rnd k).map (·.2) := by
    intro t rnd k
    obtain ⟨pad, useTBs, tbs, policies⟩ := d
    simp only [Directory.register, Directory.setPolicies, Directory.latestSTR, Directory.newTB]
    by_cases hm : k.username.length = 0 ∨ k.key.length = 0
    · simp only [if_pos hm]; rfl
    · simp only [if_neg hm]
      cases pad.lookup C k.username with
      | none => rfl
      | some o =>
        cases o with
        | none => rfl
        | some ap =>
          simp only
          cases ap.found with
          | none => rfl
          | some b =>
            cases b with
            | true => rfl
            | false =>
              simp only
              cases useTBs <;> simp only [Bool.false_eq_true, if_false, if_true]
              · cases pad.set C rnd k.username k.key with
                | none => rfl
                | some x => obtain ⟨pad', ok⟩ := x; cases ok <;> rfl
              · cases tbs k.username with
                | some tb => rfl
                | none =>
                  simp only
                  cases pad.set C rnd k.username k.key with
                  | none => rfl
                  | some x => obtain ⟨pad', ok⟩ := x; cases ok <;> rfl
  cases file with
  | none => exact ⟨d, rfl, Or.inl rfl, rfl, rfl, rfl, rfl, fun _ _ _ => ⟨rfl, rfl⟩⟩
  | some conf =>
    obtain ⟨g1, g2⟩ := hsane conf rfl
    obtain ⟨p, hp⟩ := Option.isSome_iff_exists.mp g1
    have err : loadConfig (some conf) = some none → ∃ d', d.updatePolicies (some conf) = some d' ∧ d' = d := by
      intro h; exact ⟨d, by simp [Directory.updatePolicies, h], rfl⟩
    have fin : loadConfig (some conf) = some none → ∃ d', d.updatePolicies (some conf) = some d' ∧
      (d' = d ∨ ∃ conf' p sk vk, some conf = some conf' ∧ conf'.policies = some p ∧ p.signKey = some sk ∧ sk.length = 64 ∧
        p.vrfKey = some vk ∧ vk.length = 64 ∧ d' = d.setPolicies p.epochDeadline) ∧
      d'.pad = d.pad ∧ d'.tbs = d.tbs ∧ d'.policies.vrfPublicKey = d.policies.vrfPublicKey ∧ d'.latestSTR = d.latestSTR ∧
      (∀ n rnd k, d'.keyLookup C n = d.keyLookup C n ∧ (d'.register C rnd k).map (·.2) = (d.register C rnd k).map (·.2)) := by
      intro h
      obtain ⟨d', h1, rfl⟩ := err h
      exact ⟨d', h1, Or.inl rfl, rfl, rfl, rfl, rfl, fun _ _ _ => ⟨rfl, rfl⟩⟩
    cases hsk : p.signKey with
    | none => exact fin (by simp [loadConfig, hp, hsk])
    | some sk =>
      by_cases h64 : sk.length = 64
      · cases hvk : p.vrfKey with
        | none => exact fin (by simp [loadConfig, hp, hsk, hvk, h64])
        | some vk =>
          by_cases hv : vk.length = 64
          · refine ⟨d.setPolicies p.epochDeadline, by simp [Directory.updatePolicies, loadConfig, hp, hsk, hvk, h64, hv, g2],
              Or.inr ⟨conf, p, sk, vk, rfl, hp, hsk, h64, hvk, hv, rfl⟩, rfl, rfl, rfl, rfl, fun n rnd k => ⟨rfl, hreg _ rnd k⟩⟩
          · exact fin (by simp [loadConfig, hp, hsk, hvk, h64, hv])
      · exact fin (by simp [loadConfig, hp, hsk, h64])

/-- C58 is false for a readable file without `[policies]` (whatever else it holds), and for a complete one without `[logger]` or with an address that
sets nothing:
the reload panics. -/
theorem C58_missing_table_counterexample (d : Directory) (logger : Bool) (t : UInt64) (sk vk : Bytes) (hs : sk.length = 64)
    (hv : vk.length = 64) :
    Panics (d.updatePolicies (some ⟨none, logger⟩)) ∧ Panics (d.updatePolicies (some ⟨some ⟨t, some sk, some vk⟩, false⟩)) := by
  simp [Panics, Directory.updatePolicies, loadConfig, hs, hv]

/-- C58: what a reload does, for every configuration. It crashes the server exactly if the file can be decoded and has no `[policies]`, or, with two good keys,
lacks what is read afterwards; it sets the deadline exactly if everything is there; in all other cases it changes nothing. -/
theorem C58_reload_iff (d : Directory) (file : Option LoadedConf) :
    (Panics (d.updatePolicies file) ↔ ∃ conf, file = some conf ∧ (conf.policies = none ∨ conf.logger = false ∧ ∃ p sk vk, conf.policies = some p ∧
      p.signKey = some sk ∧ sk.length = 64 ∧ p.vrfKey = some vk ∧ vk.length = 64)) ∧
    (∀ p sk vk, file = some ⟨some p, true⟩ → p.signKey = some sk → sk.length = 64 → p.vrfKey = some vk → vk.length = 64 →
      d.updatePolicies file = some (d.setPolicies p.epochDeadline)) ∧
    ((file = none ∨ ∃ p logger, file = some ⟨some p, logger⟩ ∧ ¬ ((∃ sk, p.signKey = some sk ∧ sk.length = 64) ∧ ∃ vk, p.vrfKey = some vk ∧ vk.length = 64)) →
      d.updatePolicies file = some d) := by
  refine ⟨?_, ?_, ?_⟩
  · rcases file with _ | ⟨_ | ⟨t, _ | sk, _ | vk⟩, logger⟩
    · simp [Panics, Directory.updatePolicies, loadConfig]
    · simp [Panics, Directory.updatePolicies, loadConfig]
    · simp [Panics, Directory.updatePolicies, loadConfig]
    · simp [Panics, Directory.updatePolicies, loadConfig]
    · by_cases h1 : sk.length = 64 <;> simp [Panics, Directory.updatePolicies, loadConfig, h1]
    · by_cases h1 : sk.length = 64 <;> by_cases h2 : vk.length = 64 <;> cases logger <;> simp [Panics, Directory.updatePolicies, loadConfig, h1, h2]
  · rintro ⟨t, _, _⟩ sk vk rfl rfl h1 rfl h2
    simp [Directory.updatePolicies, loadConfig, h1, h2]
  · rintro (rfl | ⟨⟨t, sk, vk⟩, logger, rfl, hn⟩)
    · rfl
    · rcases sk with _ | sk
      · simp [Directory.updatePolicies, loadConfig]
      · by_cases h1 : sk.length = 64
        · rcases vk with _ | vk
          · simp [Directory.updatePolicies, loadConfig, h1]
          · by_cases h2 : vk.length = 64
            · exact absurd ⟨⟨sk, rfl, h1⟩, vk, rfl, h2⟩ hn
            · simp [Directory.updatePolicies, loadConfig, h1, h2]
        · simp [Directory.updatePolicies, loadConfig, h1]

example (d : Directory) : d.updatePolicies (some ⟨some ⟨9, some (List.replicate 64 1), some (List.replicate 64 2)⟩, true⟩) =
    some (d.setPolicies 9) := by simp [Directory.updatePolicies, loadConfig]

/-! ### C49 -/

/-- C49. Exactly these messages are forwarded, and unchanged: registrations whose name is the sender's lower-cased handle with
"@twitter" appended, up to letter case. Everything else is answered with `ErrMalformedMessage` and nothing is sent; a failure to
reach the key server is answered with `ErrDirectory`. -/
theorem C49_forwards_iff (J : Json) (X : Text) (handle msg : Bytes) (send : Bytes → Option Bytes) :
    ((∃ r, unmarshalRequest J msg = some ⟨0, .registration r⟩ ∧ X.equalFold (X.toLower handle ++ atTwitter) r.username = true) →
      (handleRegistration J X handle msg send).1 = some msg ∧
      (handleRegistration J X handle msg send).2 = match send msg with
        | some res => .relayed res
        | none => .error ErrDirectory) ∧
    ((¬ ∃ r, unmarshalRequest J msg = some ⟨0, .registration r⟩ ∧ X.equalFold (X.toLower handle ++ atTwitter) r.username = true) →
      handleRegistration J X handle msg send = (none, .error ErrMalformedMessage)) := by
  constructor
  · rintro ⟨r, hu, hf⟩
    simp only [handleRegistration, hu, hf, RegistrationType]
    cases send msg <;> simp
  · intro hno
    unfold handleRegistration
    cases hu : unmarshalRequest J msg with
    | none => rfl
    | some req =>
      obtain ⟨t, p⟩ := req
      cases p with
      | registration r =>
        by_cases ht : t = 0
        · subst ht
          have : X.equalFold (X.toLower handle ++ atTwitter) r.username = false := by
            cases hx : X.equalFold (X.toLower handle ++ atTwitter) r.username with
            | false => rfl
            | true => exact absurd ⟨r, hu, hx⟩ hno
          simp [this]
        · have : (t != RegistrationType) = true := by simpa [RegistrationType] using ht
          simp [this]
      | _ => rfl

/-- C49, through the bot's message loop: something reaches the key server only for a direct message that carries the prefix, was not
sent by the bot itself, and holds a registration for its sender's handle. -/
theorem C49_run (J : Json) (X : Text) (bot sender text : Bytes) (send : Bytes → Option Bytes) (m : Bytes)
    (h : (onDM J X bot sender text send).1 = some m) :
    text = messagePrefix ++ m ∧ X.equalFold sender bot = false ∧
    ∃ r, unmarshalRequest J m = some ⟨0, .registration r⟩ ∧ X.equalFold (X.toLower sender ++ atTwitter) r.username = true := by
  unfold onDM at h
  split at h
  · cases h
  · rename_i hb
    split at h
    · rename_i hp
      obtain ⟨m', hm'⟩ := List.isPrefixOf_iff_prefix.mp hp
      simp only at h
      have hd : text.drop messagePrefix.length = m' := by rw [← hm']; simp
      rw [hd] at h
      by_cases hf : ∃ r, unmarshalRequest J m' = some ⟨0, .registration r⟩ ∧ X.equalFold (X.toLower sender ++ atTwitter) r.username = true
      · rw [((C49_forwards_iff J X sender m' send).1 hf).1] at h
        cases h
        exact ⟨hm'.symm, by simpa using hb, hf⟩
      · rw [(C49_forwards_iff J X sender m' send).2 hf] at h; cases h
    · cases h

/-- C49, end to end: what the key server does with a forwarded message of at most 8192 bytes is a registration of a name that is the
sender's handle up to letter case (or a refusal). For longer messages the server sees only the first 8192 bytes; then the same
holds if the codec decodes a message and a beginning of it alike (as JSON does). -/
theorem C49_end_to_end (C : Crypto) (J : Json) (X : Text) (handle msg : Bytes) (send : Bytes → Option Bytes)
    (h : (handleRegistration J X handle msg send).1 = some msg)
    (hlen : msg.length ≤ 8192 ∨ ∀ q q', unmarshalRequest J msg = some q → unmarshalRequest J (msg.take 8192) = some q' → q' = q)
    (perms : Nat → Int → Bool) (addr : Nat) (rnd : Option Bytes) (d d' : Directory) (resp : Option Response)
    (hs : acceptClient C J perms rnd d addr ⟨msg, false⟩ = some (d', resp)) :
    (d' = d ∧ resp = some ⟨ErrMalformedMessage, .none⟩) ∨
    ∃ r resp', X.equalFold (X.toLower handle ++ atTwitter) r.username = true ∧ d.register C rnd r = some (d', resp') ∧ resp = some resp' := by
  have hf : ∃ r, unmarshalRequest J msg = some ⟨0, .registration r⟩ ∧ X.equalFold (X.toLower handle ++ atTwitter) r.username = true := by
    apply Classical.byContradiction
    intro hno
    rw [(C49_forwards_iff J X handle msg send).2 hno] at h; cases h
  obtain ⟨r, hu, hx⟩ := hf
  obtain ⟨buf, hbuf, hdec⟩ : ∃ buf, (Conn.mk msg false).read = some buf ∧
      ∀ q, unmarshalRequest J buf = some q → q = ⟨0, .registration r⟩ := by
    by_cases hl : 8192 ≤ msg.length
    · refine ⟨msg.take 8192, by simp [Conn.read, hl], fun q hq => ?_⟩
      rcases hlen with hlen | hlen
      · have : msg.take 8192 = msg := List.take_of_length_le (by omega)
        rw [this, hu] at hq; cases hq; rfl
      · exact hlen _ _ hu hq
    · refine ⟨msg, by simp [Conn.read]; omega, fun q hq => ?_⟩
      rw [hu] at hq; cases hq; rfl
  by_cases hp : ∃ q, unmarshalRequest J buf = some q ∧ perms addr q.type = true
  · obtain ⟨q, hq, hpq⟩ := hp
    rw [C46_permitted C J perms rnd d addr _ buf hbuf q hq hpq] at hs
    have := hdec q hq
    subst this
    right
    obtain ⟨x, hx', e⟩ := Option.map_eq_some_iff.mp hs
    cases e
    refine ⟨r, x.2, hx, ?_, rfl⟩
    have hreg := register_type_handle C rnd d r
    simp only [RegistrationType] at hreg
    rw [← hreg]; exact hx'
  · left
    rw [C46_refused C J perms rnd d addr _ buf hbuf (fun q hq => by
      cases hb : perms addr q.type with
      | false => rfl
      | true => exact absurd ⟨q, hq, hb⟩ hp)] at hs
    cases hs
    exact ⟨rfl, rfl⟩

/-- C49. Nobody can use another's name: if `EqualFold` is symmetric and transitive, two senders for whom the bot forwards a
registration of one name have the same handle up to letter case. -/
theorem C49_one_owner (J : Json) (X : Text) (symm : ∀ a b, X.equalFold a b = true → X.equalFold b a = true)
    (trans : ∀ a b c, X.equalFold a b = true → X.equalFold b c = true → X.equalFold a c = true)
    (h₁ h₂ msg₁ msg₂ : Bytes) (send : Bytes → Option Bytes) (r₁ r₂ : RegistrationRequest)
    (f₁ : (handleRegistration J X h₁ msg₁ send).1 = some msg₁) (u₁ : unmarshalRequest J msg₁ = some ⟨0, .registration r₁⟩)
    (f₂ : (handleRegistration J X h₂ msg₂ send).1 = some msg₂) (u₂ : unmarshalRequest J msg₂ = some ⟨0, .registration r₂⟩)
    (same : r₁.username = r₂.username) : X.equalFold (X.toLower h₁ ++ atTwitter) (X.toLower h₂ ++ atTwitter) = true := by
  have get : ∀ hd msg r, (handleRegistration J X hd msg send).1 = some msg → unmarshalRequest J msg = some ⟨0, .registration r⟩ →
      X.equalFold (X.toLower hd ++ atTwitter) r.username = true := by
    intro hd msg r f u
    apply Classical.byContradiction
    intro hno
    rw [(C49_forwards_iff J X hd msg send).2 (fun ⟨r', u', x'⟩ => by rw [u] at u'; cases u'; exact hno x')] at f
    cases f
  have a := get h₁ msg₁ r₁ f₁ u₁
  have b := get h₂ msg₂ r₂ f₂ u₂
  rw [← same] at b
  exact trans _ _ _ a (symm _ _ b)

/-- ASCII letter case -/
def asciiText : Text where
  toLower := fun b => b.map fun c => if 65 ≤ c ∧ c ≤ 90 then c + 32 else c
  equalFold := fun a b => (a.map fun c => if 65 ≤ c ∧ c ≤ 90 then c + 32 else c) == (b.map fun c => if 65 ≤ c ∧ c ≤ 90 then c + 32 else c)

/-- a codec that reads "type, rest": name up to and including "@twitter", then the key -/
def botJson : Json := { toyJson with registration := fun c => some ⟨c.take 11, c.drop 11⟩ }

/-- handle "Bob" may register "bOB@twitter" but not "eve@twitter" -/
example : (handleRegistration botJson asciiText [0x42, 0x6f, 0x62] ([0, 0x62, 0x4f, 0x42] ++ atTwitter ++ [1, 2]) (fun _ => none)).1 =
      some ([0, 0x62, 0x4f, 0x42] ++ atTwitter ++ [1, 2]) ∧
    handleRegistration botJson asciiText [0x42, 0x6f, 0x62] ([0, 0x65, 0x76, 0x65] ++ atTwitter ++ [1, 2]) (fun _ => none) =
      (none, .error ErrMalformedMessage) := by decide

/-- the same in a direct message to the bot "x", which must come from "bob" and carry the prefix: `C49_run` applies -/
example : (onDM botJson asciiText [0x78] [0x62, 0x6f, 0x62] (messagePrefix ++ ([0, 0x62, 0x4f, 0x42] ++ atTwitter ++ [1, 2])) (fun _ => none)).1 =
    some ([0, 0x62, 0x4f, 0x42] ++ atTwitter ++ [1, 2]) := by decide

/-! ### C50 -/

/-- C50, PARTIAL. If nobody else creates the file in between, and `os.Stat` sees every existing file: all files that exist keep their
content (whatever faults occur); without an error the file did not exist before and now has exactly the given content; with an error
it either still does not exist or has the beginning of the content written so far. Missing: without the two conditions an existing file is
overwritten, see below. -/
theorem C50_writeFile_partial (fs : FS) (p buf : Bytes) (env : FS → FS) (fault : WriteFault)
    (henv : fs p = none → env fs p = none) :
    (∀ q c, fs q = some c → (∀ q', q' ≠ p → env fs q' = fs q') → (writeFile fs p buf false env fault).1 q = some c) ∧
    ((writeFile fs p buf false env fault).2 = true → fs p = none ∧ (writeFile fs p buf false env fault).1 p = some buf) ∧
    ((writeFile fs p buf false env fault).2 = false → fs p = none →
      (writeFile fs p buf false env fault).1 p = none ∨ ∃ n, (writeFile fs p buf false env fault).1 p = some (buf.take n)) ∧
    (fs p ≠ none → (writeFile fs p buf false env fault).2 = false) := by
  cases hp : fs p with
  | some c =>
    have e : writeFile fs p buf false env fault = (fs, false) := by simp [writeFile, hp]
    rw [e]
    exact ⟨fun q c h _ => h, fun h => (nomatch h), fun _ h => (nomatch h), fun _ => rfl⟩
  | none =>
    have e : writeFile fs p buf false env fault = ioWriteFile (env fs) p buf fault := by simp [writeFile, hp]
    rw [e]
    refine ⟨?_, ?_, ?_, fun h => absurd rfl h⟩
    · intro q c hq hoth
      have hne : q ≠ p := fun e => by rw [e, hp] at hq; cases hq
      cases fault <;> simp [ioWriteFile, FS.put, hne, hoth q hne, hq]
    · intro h
      cases fault with
      | none => exact ⟨rfl, by simp [ioWriteFile, FS.put]⟩
      | _ => cases h
    · intro h _
      cases fault with
      | noOpen => left; exact henv hp
      | short n => right; exact ⟨n, by simp [ioWriteFile, FS.put]⟩
      | none => cases h

/-- a write that stops after one byte of two, next to another file -/
example : (writeFile (fun q => if q = [9] then some [7] else none) [1] [5, 6] false id (.short 1)).1 [9] = some [7] :=
  (C50_writeFile_partial (fun q => if q = [9] then some [7] else none) [1] [5, 6] id (.short 1) (fun h => h)).1 [9] [7] rfl (fun _ _ => rfl)

/-- C50 is false if another process creates the file between the check and the write: its content is lost, and no error reported. -/
theorem C50_race_counterexample (fs : FS) (p buf other : Bytes) (h : fs p = none) (hne : other ≠ buf) :
    let env : FS → FS := fun f => f.put p (some other)
    env fs p = some other ∧ (writeFile fs p buf false env .none).2 = true ∧ (writeFile fs p buf false env .none).1 p = some buf ∧
    some buf ≠ env fs p := by
  refine ⟨by simp [FS.put], by simp [writeFile, h, ioWriteFile], by simp [writeFile, h, ioWriteFile, FS.put], ?_⟩
  simp [FS.put]; exact fun e => hne e.symm

/-- C50 is false if `os.Stat` fails on the existing file for another reason than absence. -/
theorem C50_stat_counterexample (fs : FS) (p buf old : Bytes) (h : fs p = some old) (hne : old ≠ buf) :
    (writeFile fs p buf true id .none).2 = true ∧ (writeFile fs p buf true id .none).1 p ≠ fs p := by
  refine ⟨by simp [writeFile, ioWriteFile], ?_⟩
  simp [writeFile, ioWriteFile, FS.put, h]; exact fun e => hne e.symm

example : (writeFile (fun _ => none) [1] [5, 6] false id .none).1 [1] = some [5, 6] ∧
    (writeFile (fun _ => some [9]) [1] [5, 6] false id .none) = ((fun _ => some [9]), false) := by
  constructor <;> rfl

/-! ### C59, C60: the files of the key server -/

/-- C59, PARTIAL. If there is no file at the configured path, starting the server stores the initial STR there (encoded) unless the
write fails. Missing: a file left from an earlier run is kept, see below. -/
theorem C59_initSTR_partial (json : DirSTR → Bytes) (fs : FS) (path : Bytes) (d : Directory) (h : fs path = none) :
    saveInitSTR json fs path d .none path = some (json d.latestSTR) := by
  simp [saveInitSTR, writeFile, h, ioWriteFile, FS.put]

/-- C59 is false when the server is started a second time: the file keeps the STR of the earlier server, silently, while the new
server's initial STR is another one (fresh randomness) if its encoding differs. -/
theorem C59_restart_counterexample (json : DirSTR → Bytes) (fs : FS) (path : Bytes) (d d' : Directory) (h : fs path = none)
    (hne : json d'.latestSTR ≠ json d.latestSTR) (fault : WriteFault) :
    saveInitSTR json (saveInitSTR json fs path d .none) path d' fault path = some (json d.latestSTR) ∧
    saveInitSTR json (saveInitSTR json fs path d .none) path d' fault path ≠ some (json d'.latestSTR) := by
  have e : saveInitSTR json (saveInitSTR json fs path d .none) path d' fault path = some (json d.latestSTR) := by
    have h1 := C59_initSTR_partial json fs path d h
    have keep : ∀ g : FS, g path ≠ none → saveInitSTR json g path d' fault = g := by
      intro g hg
      have : (g path).isSome = true := by cases hgp : g path <;> simp_all
      simp [saveInitSTR, writeFile, this]
    rw [keep _ (by rw [h1]; simp)]
    exact h1
  exact ⟨e, by rw [e]; intro h'; exact hne (Option.some.inj h').symm⟩

/-- a start with a different nonce gives a different initial STR (toy crypto) -/
example : ∃ d d', newDirectory Crypto.toy 60 [2] [1] 10 true (some [3]) (some [4]) = some d ∧
    newDirectory Crypto.toy 60 [2] [1] 10 true (some [5]) (some [6]) = some d' ∧ d'.latestSTR ≠ d.latestSTR := by
  have h : (newDirectory Crypto.toy 60 [2] [1] 10 true (some [3]) (some [4])).map Directory.latestSTR ≠
      (newDirectory Crypto.toy 60 [2] [1] 10 true (some [5]) (some [6])).map Directory.latestSTR := by decide +kernel
  obtain ⟨d, h1, _⟩ := new_dir_inv Crypto.toy 60 [1] [2] 10 [3] [4] []
  obtain ⟨d', h2, _⟩ := new_dir_inv Crypto.toy 60 [1] [2] 10 [5] [6] []
  refine ⟨d, d', h1, h2, fun e => h ?_⟩
  rw [h1, h2]; simp [e]

/-- C60, PARTIAL. If neither key file exists, then after `coniksserver init` (whatever faults occur) the public key file, if it exists
and was written completely, belongs to the private key file. Missing: a stale public key file, see below. -/
theorem C60_keyFiles_partial (fs : FS) (priv pub sk pk : Bytes) (f₁ f₂ : WriteFault) (hne : priv ≠ pub)
    (hp : fs priv = none) (hq : fs pub = none) :
    (mkKey fs priv pub (some (sk, pk)) f₁ f₂) pub ≠ none →
      (mkKey fs priv pub (some (sk, pk)) f₁ f₂) priv = some sk ∧
      ∃ n, (mkKey fs priv pub (some (sk, pk)) f₁ f₂) pub = some (pk.take n) := by
  unfold mkKey
  simp only [writeFile, hp, Option.isSome_none, Bool.false_and, Bool.false_eq_true, if_false, id_eq]
  cases f₁ with
  | noOpen => simp [ioWriteFile, hq]
  | short n => simp [ioWriteFile, FS.put, hne.symm, hq]
  | none =>
    simp only [ioWriteFile]
    have : (FS.put fs priv (some sk) pub) = none := by simp [FS.put, hne.symm, hq]
    simp only [this, Option.isSome_none, Bool.false_and, Bool.false_eq_true, if_false]
    cases f₂ with
    | noOpen => simp [ioWriteFile, this]
    | short n => intro _; exact ⟨by simp [ioWriteFile, FS.put, hne], n, by simp [ioWriteFile, FS.put]⟩
    | none => intro _; exact ⟨by simp [ioWriteFile, FS.put, hne], pk.length, by simp [ioWriteFile, FS.put]⟩

/-- C60 is false if a public key file is there already: a new private key is stored next to the old public key. -/
theorem C60_stale_public_key_counterexample (fs : FS) (priv pub sk pk old : Bytes) (hne : priv ≠ pub) (hp : fs priv = none)
    (hq : fs pub = some old) (hold : old ≠ pk) :
    (mkKey fs priv pub (some (sk, pk)) .none .none) priv = some sk ∧ (mkKey fs priv pub (some (sk, pk)) .none .none) pub = some old ∧
    some old ≠ some pk := by
  have : (FS.put fs priv (some sk) pub) = some old := by simp [FS.put, hne.symm, hq]
  simp only [mkKey, writeFile, hp, Option.isSome_none, Bool.false_and, Bool.false_eq_true, if_false, id_eq, ioWriteFile, this]
  exact ⟨by simp [FS.put], by simp [this], fun e => hold (Option.some.inj e)⟩

/-- C60. An existing private key is never replaced. -/
theorem C60_private_key_kept (fs : FS) (priv pub old : Bytes) (key : Option (Bytes × Bytes)) (f₁ f₂ : WriteFault)
    (hp : fs priv = some old) : (mkKey fs priv pub key f₁ f₂) = fs := by
  unfold mkKey
  cases key with
  | none => rfl
  | some k => simp [writeFile, hp]

example : (mkKey (fun _ => none) [1] [2] (some ([7], [8])) .none .none) [2] = some [8] ∧
    (mkKey (fun _ => none) [1] [2] (some ([7], [8])) .none .none) [1] = some [7] := by constructor <;> rfl

end Coniks.Props
