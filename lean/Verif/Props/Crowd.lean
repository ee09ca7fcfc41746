import Verif.Proofs.Crowd
import Verif.Props.Users
/-
C87: many users at a server that serves them at the same time.
-/
namespace Coniks.Props
open Coniks Spec

variable {C : Crypto} {t0 : UInt64} {sk vk : Bytes} {size : Nat} {r₁ r₂ : Bytes} {pre : List DirOp} {d₀ : Directory} {log₀ : List STR}

/-- C87. As if one by one. A directory that has been used in any way (`pre`) is served by a server; goroutines run the code of the sections step by
step under the lock, users with clients in any state send calls, hear answers when they come, or give up, in any schedule `es`. Then take the
calls in the order in which the server finished them (`oneByOne`: those that were heard as calls of users who handle the answer at once, the
others as calls at the directory). This is a history of the sequential world of C84 (`runUsers`), and it cannot be told from what happened: the
clients are the same, every user heard the same answers with the same verdicts in the same order, and so is the directory whenever nobody is
writing. -/
theorem C87_one_by_one (h₀ : dirAfter C t0 sk vk size r₁ r₂ pre = some (d₀, log₀)) (calls : Nat → Call)
    (hsane : ∀ i j, calls i = .other j → Job.Sane j) (us : Nat → Client) (pk : Bytes) (es : List CrowdEv) (s : Crowd)
    (h : (Crowd.initial d₀ us).execAll C calls es = .ok s)
    (hlt : dirUpdates pre + ((served es).countP fun i => (calls i).job = .epochUpdate) < 2 ^ 64) :
    (served es).Nodup ∧ ∃ (d : Directory) (hs : List (Nat × Heard)),
      runUsers C pk d₀ us (oneByOne calls s es) = some (d, s.users, hs.map Prod.snd) ∧
      hs.map Prod.fst = (served es).filter s.Heard ∧
      (∀ u, hs.filter (·.2.user = u) = s.heard.filter (·.2.user = u)) ∧
      (s.sys.lock.writer = false → s.sys.mem = d) := by
  have inv := crowd_execAll (pk := pk) h₀ hsane es (crowd_initial C pk calls d₀ us) (by simpa using hlt) s h
  rw [List.nil_append] at inv
  obtain ⟨act, li⟩ := inv.lock
  obtain ⟨hs, g1, g2⟩ := inv.run
  refine ⟨li.nodup, _, hs, runCalls_users C pk calls s.Heard _ _ _ _ _ _ g1, runCalls_ids C pk calls s.Heard _ (fun i hi hh => ?_) _ _ _ _ _ g1, g2,
    li.quiet⟩
  obtain ⟨x, hx, rfl⟩ := List.mem_map.mp ((heard_iff s i).mp hh)
  rw [(inv.heardBy x hx).2]
  exact fun e => (nomatch e)

/-- C87. The answer to the `k`-th call that the server finished, heard or not, is the one of the directory after the first `k - 1`. -/
theorem C87_answers (h₀ : dirAfter C t0 sk vk size r₁ r₂ pre = some (d₀, log₀)) (calls : Nat → Call)
    (hsane : ∀ i j, calls i = .other j → Job.Sane j) (us : Nat → Client) (es : List CrowdEv) (s : Crowd)
    (h : (Crowd.initial d₀ us).execAll C calls es = .ok s)
    (hlt : dirUpdates pre + ((served es).countP fun i => (calls i).job = .epochUpdate) < 2 ^ 64) (k i : Nat) (hk : (served es)[k]? = some i) :
    ∃ dk logk dk' r, dirAfter C t0 sk vk size r₁ r₂ (pre ++ ((served es).take k).flatMap fun i => Job.ops (calls i).job) = some (dk, logk) ∧
      (calls i).job.apply C dk = some (dk', r) ∧ s.sys.phase i = .done (some r) := by
  have inv := crowd_execAll (pk := []) h₀ hsane es (crowd_initial C [] calls d₀ us) (by simpa using hlt) s h
  rw [List.nil_append] at inv
  obtain ⟨act, li⟩ := inv.lock
  obtain ⟨log, q1, q2⟩ := crowd_history h₀ hsane hlt
  obtain ⟨dk, logk, dk', r', k1, k2, k3⟩ := q2 _ _ hk
  obtain ⟨r'', l1, l2⟩ := li.results _ _ hk
  rw [k3] at l1
  cases l1
  exact ⟨dk, logk, dk', r', k1, k2, l2⟩

/-- C87. Nobody crashes: no schedule makes the server give back a lock it does not hold, and no answer that arrives crashes a client, whatever the
clients hold. (No condition on the VRF: see C82.) -/
theorem C87_no_crash (h₀ : dirAfter C t0 sk vk size r₁ r₂ pre = some (d₀, log₀)) (calls : Nat → Call)
    (hsane : ∀ i j, calls i = .other j → Job.Sane j) (us : Nat → Client) (es : List CrowdEv)
    (hlt : dirUpdates pre + ((served es).countP fun i => (calls i).job = .epochUpdate) < 2 ^ 64) :
    (Crowd.initial d₀ us).execAll C calls es ≠ .fatal :=
  crowd_never_fatal (pk := []) h₀ hsane es (crowd_initial C [] calls d₀ us) (by simpa using hlt)

/-- C87. Nobody is stuck: as long as a user waits for an answer, the server can make a step or he can hear the answer, unless it is too long to be
read. (That he will be served in the end is C78.) -/
theorem C87_progress (h₀ : dirAfter C t0 sk vk size r₁ r₂ pre = some (d₀, log₀)) (calls : Nat → Call)
    (hsane : ∀ i j, calls i = .other j → Job.Sane j) (us : Nat → Client) (es : List CrowdEv) (s : Crowd)
    (h : (Crowd.initial d₀ us).execAll C calls es = .ok s)
    (hlt : dirUpdates pre + ((served es).countP fun i => (calls i).job = .epochUpdate) < 2 ^ 64) (u i : Nat) (hw : s.waiting u = some i) :
    (∃ e s', s.exec C calls (.server e) = .ok s') ∨ (∃ s', s.exec C calls (.hear i) = .ok s') ∨
    ∃ resp, s.sys.phase i = .done (some (some resp)) ∧ 8192 < (Json.marshalResponse resp).length := by
  have inv := crowd_execAll (pk := []) h₀ hsane es (crowd_initial C [] calls d₀ us) (by simpa using hlt) s h
  rw [List.nil_append] at inv
  exact crowd_progress h₀ hsane hlt inv hw

/-- C87. Every order is possible: whatever the calls are and whatever order `l` of them is given, some schedule makes the server finish exactly these calls in
this order, and everybody hears his answer unless it is too long to be read. -/
theorem C87_every_order (h₀ : dirAfter C t0 sk vk size r₁ r₂ pre = some (d₀, log₀)) (calls : Nat → Call)
    (hsane : ∀ i j, calls i = .other j → Job.Sane j) (us : Nat → Client) (l : List Nat) (hl : l.Nodup)
    (hlt : dirUpdates pre + (l.countP fun i => (calls i).job = .epochUpdate) < 2 ^ 64) :
    ∃ es s, (Crowd.initial d₀ us).execAll C calls es = .ok s ∧ served es = l ∧
      ∀ i ∈ l, (calls i).user ≠ none → s.Heard i = true ∨
        ∃ resp, s.sys.phase i = .done (some (some resp)) ∧ 8192 < (Json.marshalResponse resp).length := by
  obtain ⟨es, s, g1, g2, _, _, _, g4⟩ := every_order (pk := []) h₀ hsane l (crowd_initial C [] calls d₀ us) ⟨rfl, rfl⟩ hl (fun _ _ => ⟨rfl, rfl⟩)
    (by simpa using hlt)
  exact ⟨es, s, g1, g2, g4⟩

theorem heard_in {hs l : List (Nat × Heard)} (h : ∀ u, hs.filter (·.2.user = u) = l.filter (·.2.user = u)) {x : Nat × Heard} (hx : x ∈ l) : x ∈ hs := by
  have : x ∈ l.filter (·.2.user = x.2.user) := List.mem_filter.mpr ⟨hx, by simp⟩
  rw [← h] at this
  exact (List.mem_filter.mp this).1

/-- C87. Users agree, however their calls overlap at the server: the keys in any two answers about a name are the same, to whichever users, and
the key was registered for that name by a registration that succeeded. `inj`: the names used have different VRF indices. -/
theorem C87_agreement (h₀ : dirAfter C t0 sk vk size r₁ r₂ pre = some (d₀, log₀)) (calls : Nat → Call)
    (hsane : ∀ i j, calls i = .other j → Job.Sane j) (us : Nat → Client) (es : List CrowdEv) (s : Crowd)
    (h : (Crowd.initial d₀ us).execAll C calls es = .ok s)
    (hlt : dirUpdates (pre ++ (oneByOne calls s es).flatMap UserOp.dirOps) < 2 ^ 64)
    (inj : IndexInj (fun k => (C.vrfProve vk k).1)
      (regNames (pre ++ (oneByOne calls s es).flatMap UserOp.dirOps) ++ userNames (oneByOne calls s es))) :
    (∀ x ∈ s.heard, ∀ y ∈ s.heard, x.2.name = y.2.name → ∀ k ∈ keysShown x.2.resp, ∀ k' ∈ keysShown y.2.resp, k = k') ∧
    ∀ x ∈ s.heard, ∀ k ∈ keysShown x.2.resp, ∃ a rnd b d₁ log₁ d₂ resp,
      pre ++ (oneByOne calls s es).flatMap UserOp.dirOps = a ++ .register rnd ⟨x.2.name, k⟩ :: b ∧
      dirAfter C t0 sk vk size r₁ r₂ a = some (d₁, log₁) ∧ d₁.register C rnd ⟨x.2.name, k⟩ = some (d₂, resp) ∧ resp.error = ReqSuccess := by
  have hops : (oneByOne calls s es).flatMap UserOp.dirOps = (served es).flatMap fun i => Job.ops (calls i).job := by
    rw [oneByOne, List.flatMap_assoc]; simp only [asOp_dirOps]
  have hlt' : dirUpdates pre + ((served es).countP fun i => (calls i).job = .epochUpdate) < 2 ^ 64 := by
    rw [hops, dirUpdates_append, flatMap_updates] at hlt; exact hlt
  obtain ⟨_, d, hs, g1, _, g3, _⟩ := C87_one_by_one h₀ calls hsane us [] es s h hlt'
  obtain ⟨a1, a2⟩ := C84_agreement C t0 sk vk size r₁ r₂ pre [] (oneByOne calls s es) hlt inj d₀ log₀ h₀ us s.users d _ g1
  refine ⟨fun x hx y hy => a1 x.2 (List.mem_map_of_mem (heard_in g3 hx)) y.2 (List.mem_map_of_mem (heard_in g3 hy)),
    fun x hx => a2 x.2 (List.mem_map_of_mem (heard_in g3 hx))⟩

/-- C87. Everybody is served: users with fresh clients who keep up (one answered call per epoch, in the order of the server) hear, each in his
order, exactly what the abstract directory says: a function of the map from names to keys and of the order in which the server finished
the calls. -/
theorem C87_everybody_served (h₀ : dirAfter C t0 sk vk size r₁ r₂ pre = some (d₀, log₀)) (calls : Nat → Call)
    (hsane : ∀ i j, calls i = .other j → Job.Sane j) (us : Nat → Client)
    (hfresh : ∀ i, newClient d₀.latestSTR true (C.signPub sk) = some (us i)) (es : List CrowdEv) (s : Crowd)
    (h : (Crowd.initial d₀ us).execAll C calls es = .ok s)
    (hlt : dirUpdates (pre ++ (oneByOne calls s es).flatMap UserOp.dirOps) < 2 ^ 64)
    (spread : IndexSpread (fun k => (C.vrfProve vk k).1)
      (regNames (pre ++ (oneByOne calls s es).flatMap UserOp.dirOps) ++ userNames (oneByOne calls s es)))
    (hus : ∀ n ∈ userNames (oneByOne calls s es), C.vrfUsable n = true) (hk : AllKeepUp (fun _ => 0) (absAfter pre) (oneByOne calls s es)) (u : Nat) :
    (s.heard.filter (·.2.user = u)).map (fun x => x.2.outline) =
      (usersHear (absAfter pre) (oneByOne calls s es)).filter (·.user = u) := by
  have hops : (oneByOne calls s es).flatMap UserOp.dirOps = (served es).flatMap fun i => Job.ops (calls i).job := by
    rw [oneByOne, List.flatMap_assoc]; simp only [asOp_dirOps]
  have hlt' : dirUpdates pre + ((served es).countP fun i => (calls i).job = .epochUpdate) < 2 ^ 64 := by
    rw [hops, dirUpdates_append, flatMap_updates] at hlt; exact hlt
  obtain ⟨_, d, hs, g1, _, g3, _⟩ := C87_one_by_one h₀ calls hsane us (C.signPub sk) es s h hlt'
  obtain ⟨log, hrun⟩ := runUsers_dir C (C.signPub sk) _ d₀ us d s.users _ log₀ g1
  obtain ⟨us₂, heard, q1, q2⟩ := C84_everybody_served C t0 sk vk size r₁ r₂ pre (oneByOne calls s es) hlt spread hus hk d₀ log₀ h₀ us hfresh d log
    (by rw [dirAfter_append, h₀, Option.bind_some]; exact hrun)
  rw [g1, Option.some.injEq, Prod.mk.injEq, Prod.mk.injEq] at q1
  rw [← q2, ← q1.2.2, ← g3 u, List.filter_map, List.filter_map, List.map_map]
  rfl

theorem sent_kept {calls : Nat → Call} {s s' : Crowd} {e : CrowdEv} (h : s.exec C calls e = .ok s') : ∃ more, s'.heard = s.heard ++ more := by
  cases e with
  | send i =>
    simp only [Crowd.exec] at h
    split at h
    · nomatch h
    · split at h
      · nomatch h
      · cases h; exact ⟨[], by simp⟩
  | giveUp u => cases h; exact ⟨[], by simp⟩
  | server e =>
    simp only [Crowd.exec] at h
    split at h
    · split at h
      · cases h; exact ⟨[], by simp⟩
      · nomatch h
      · nomatch h
    · nomatch h
  | hear i =>
    simp only [Crowd.exec] at h
    split at h
    · nomatch h
    · split at h
      · split at h
        · split at h
          · nomatch h
          · split at h
            · nomatch h
            · cases h; exact ⟨_, rfl⟩
        · nomatch h
      · nomatch h

theorem heard_kept {calls : Nat → Call} (es : List CrowdEv) : ∀ (s s' : Crowd), s.execAll C calls es = .ok s' → ∃ more, s'.heard = s.heard ++ more := by
  induction es with
  | nil => intro s s' h; cases h; exact ⟨[], by simp⟩
  | cons e es ih =>
    intro s s' h
    simp only [Crowd.execAll] at h
    cases hx : s.exec C calls e with
    | blocked => rw [hx] at h; nomatch h
    | fatal => rw [hx] at h; nomatch h
    | ok s1 =>
      rw [hx] at h
      obtain ⟨m1, h1⟩ := sent_kept hx
      obtain ⟨m2, h2⟩ := ih s1 s' h
      exact ⟨m1 ++ m2, by rw [h2, h1, List.append_assoc]⟩

theorem shows_of_says {k : Bytes} {o : Outline} (h : SaysKey k o) : ShowsKey k o.answer := by
  rcases h with h | ⟨h1, h2, _⟩
  · exact .inl h
  · exact .inr ⟨h1, h2⟩

/-- C87. What was heard before a call is sent counts, across users (real time): user after user, at a point in time (`es₁`) somebody has heard an
answer that shows the key `k` for a name. Then every call about this name, of whichever user, that is sent after that point is answered
with `k`, with success or `ReqNameExisted`, whether or not the user keeps up with the epochs. -/
theorem C87_real_time (h₀ : dirAfter C t0 sk vk size r₁ r₂ pre = some (d₀, log₀)) (calls : Nat → Call)
    (hsane : ∀ i j, calls i = .other j → Job.Sane j) (us : Nat → Client) (es₁ es₂ : List CrowdEv) (s₁ s : Crowd)
    (h₁ : (Crowd.initial d₀ us).execAll C calls es₁ = .ok s₁) (h : (Crowd.initial d₀ us).execAll C calls (es₁ ++ es₂) = .ok s)
    (hlt : dirUpdates (pre ++ (oneByOne calls s (es₁ ++ es₂)).flatMap UserOp.dirOps) < 2 ^ 64)
    (spread : IndexSpread (fun k => (C.vrfProve vk k).1)
      (regNames (pre ++ (oneByOne calls s (es₁ ++ es₂)).flatMap UserOp.dirOps) ++ userNames (oneByOne calls s (es₁ ++ es₂))))
    (x : Nat × Heard) (hx : x ∈ s₁.heard) (k : Bytes) (hk : k ∈ keysShown x.2.resp)
    (y : Nat × Heard) (hy : y ∈ s.heard) (hsent : s₁.sent y.1 = false) (hn : y.2.name = x.2.name) : ShowsKey k y.2.outline := by
  have hops : (oneByOne calls s (es₁ ++ es₂)).flatMap UserOp.dirOps = (served (es₁ ++ es₂)).flatMap fun i => Job.ops (calls i).job := by
    rw [oneByOne, List.flatMap_assoc]; simp only [asOp_dirOps]
  have hlt' : dirUpdates pre + ((served (es₁ ++ es₂)).countP fun i => (calls i).job = .epochUpdate) < 2 ^ 64 := by
    rw [hops, dirUpdates_append, flatMap_updates] at hlt; exact hlt
  have hlt₁ : dirUpdates pre + ((served es₁).countP fun i => (calls i).job = .epochUpdate) < 2 ^ 64 := by
    rw [served_append, List.countP_append] at hlt'; omega
  obtain ⟨nd, d, hs, g1, g2, g3, _⟩ := C87_one_by_one h₀ calls hsane us [] (es₁ ++ es₂) s h hlt'
  -- the two calls in the order of the server
  obtain ⟨s₁', e1, e2⟩ := crowd_execAll_append C calls es₁ es₂ _ _ h
  rw [h₁, Outcome.ok.injEq] at e1
  subst e1
  obtain ⟨more, hmore⟩ := heard_kept es₂ _ _ e2
  have inv₁ := crowd_execAll (pk := []) h₀ hsane es₁ (crowd_initial C [] calls d₀ us) (by simpa using hlt₁) s₁ h₁
  have inv := crowd_execAll (pk := []) h₀ hsane (es₁ ++ es₂) (crowd_initial C [] calls d₀ us) (by simpa using hlt') s h
  rw [List.nil_append] at inv₁ inv
  have hx1 := (inv₁.heardBy x hx).1
  have hy1 := inv.heardBy y hy
  have hyn : y.1 ∉ served es₁ := by
    intro hm
    obtain ⟨act, li⟩ := inv₁.lock
    obtain ⟨r, hr⟩ := (li.isDone _).mpr hm
    have := inv₁.begun _ _ hy1.2 (by rw [hr]; exact fun e => (nomatch e))
    rw [hsent] at this
    nomatch this
  have hxs : x ∈ hs := heard_in g3 (by rw [hmore]; exact List.mem_append_left _ hx)
  have hys : y ∈ hs := heard_in g3 hy
  rw [served_append, List.filter_append] at g2
  obtain ⟨l₁, l₂, hl, hf1, hf2⟩ := List.map_eq_append_iff.mp g2
  rw [served_append, List.nodup_append] at nd
  have hx2 : x ∈ l₁ := by
    rw [hl] at hxs
    rcases List.mem_append.mp hxs with g | g
    · exact g
    · have : x.1 ∈ (served es₂).filter s.Heard := hf2 ▸ List.mem_map_of_mem g
      exact absurd rfl (nd.2.2 _ hx1 _ (List.mem_filter.mp this).1)
  have hy2 : y ∈ l₂ := by
    rw [hl] at hys
    rcases List.mem_append.mp hys with g | g
    · have : y.1 ∈ (served es₁).filter s.Heard := hf1 ▸ List.mem_map_of_mem g
      exact absurd (List.mem_filter.mp this).1 hyn
    · exact g
  obtain ⟨p, q, hp⟩ := List.append_of_mem hx2
  -- what the abstract directory says
  have hsub : ∀ n ∈ regNames (pre ++ (oneByOne calls s (es₁ ++ es₂)).flatMap UserOp.dirOps),
      n ∈ regNames (pre ++ (oneByOne calls s (es₁ ++ es₂)).flatMap UserOp.dirOps) ++ userNames (oneByOne calls s (es₁ ++ es₂)) :=
    fun n hn => List.mem_append_left _ hn
  rw [dirUpdates_append] at hlt
  obtain ⟨A, dinv, hA, hlen⟩ := dirAfter_inv C t0 sk vk size r₁ r₂ pre _ (fun n hn => hsub n (by rw [regNames_append]; exact List.mem_append_left _ hn))
    (spread_inj spread) (by omega) d₀ log₀ h₀
  have ans := users_answered C [] sk vk _ (spread_inj spread) spread (oneByOne calls s (es₁ ++ es₂)) d₀ us log₀ A dinv
    (fun n hn => hsub n (by rw [regNames_append]; exact List.mem_append_right _ hn)) (fun n hn => List.mem_append_right _ hn)
    (by show _ + dirUpdates ((oneByOne calls s (es₁ ++ es₂)).flatMap UserOp.dirOps) ≤ _; omega) d s.users _ g1
  rw [hl, hp, List.append_assoc, List.cons_append, List.map_append, List.map_cons, List.map_append, List.map_cons] at ans
  obtain ⟨o₁, o₂, ho, hq1, hq2⟩ := List.map_eq_append_iff.mp ans.symm
  obtain ⟨o, o₃, ho₂, hox, ho3⟩ := List.map_eq_cons_iff.mp hq2
  subst ho₂
  have hko : k ∈ o.shown := by
    have : o.answer.shown = x.2.outline.answer.shown := by rw [hox]
    show k ∈ o.answer.shown
    rw [this]; exact hk
  have hon : o.name = x.2.name := by
    have : o.answer.name = x.2.outline.answer.name := by rw [hox]
    exact this
  have hya : y.2.outline.answer ∈ o₃.map Outline.answer := by
    rw [ho3, List.map_map]
    exact List.mem_map_of_mem (f := (fun x : Nat × Heard => x.2.outline.answer)) (List.mem_append_right _ hy2)
  obtain ⟨o', ho', hoy⟩ := List.mem_map.mp hya
  have hon' : o'.name = y.2.name := by
    have : o'.answer.name = y.2.outline.answer.name := by rw [hoy]
    exact this
  have := shows_of_says (hear_after _ A o₁ o₃ o k dinv.disj ho hko o' ho' (by rw [hon', hon, hn]))
  rw [hoy] at this
  exact this

/-- Alice (0) registers, an epoch ends, Bob (1) looks her up with the right expectation and Carol (2) with a wrong one; all other goroutines
reload an unreadable configuration. -/
def sampleCalls (i : Nat) : Call :=
  if i = 0 then .register 0 (some [7]) [0x61] [9, 9]
  else if i = 1 then .other .epochUpdate
  else if i = 2 then .lookup 1 [0x61] (some [9, 9])
  else if i = 3 then .lookup 2 [0x61] (some [1])
  else .other (.reload none)

theorem sampleCalls_sane : ∀ i j, sampleCalls i = .other j → Job.Sane j := by
  intro i j h
  unfold sampleCalls at h
  repeat' split at h
  all_goals first | (cases h; done) | (simp only [Call.other.injEq] at h; subst h; simp [Job.Sane])

/-- Bob's and Carol's lookups are at the server at the same time, Carol's overtakes Bob's, and he gives up; the update waits for both -/
example (d₀ : Directory) (us : Nat → Client) : ∃ s, (Crowd.initial d₀ us).execAll Crypto.toy sampleCalls
    [.send 2, .send 3, .server (.lock 2), .server (.lock 3), .server (.step 3), .server (.unlock 3), .server (.step 2), .giveUp 1,
     .server (.unlock 2), .server (.lock 1), .server (.step 1)] = .ok s ∧ s.waiting 1 = none ∧ s.waiting 2 = some 3 :=
  ⟨_, rfl, rfl, rfl⟩

example : served [.send 2, .send 3, .server (.lock 2), .server (.lock 3), .server (.step 3), .server (.unlock 3), .server (.step 2), .giveUp 1,
     .server (.unlock 2), .server (.lock 1), .server (.step 1)] = [3, 2] := rfl

/-- a call is not worked on before it is sent, an answer is not heard before it is there, and a user makes one call at a time -/
example (d₀ : Directory) (us : Nat → Client) : (Crowd.initial d₀ us).execAll Crypto.toy sampleCalls [.server (.lock 2)] = .blocked ∧
    (Crowd.initial d₀ us).execAll Crypto.toy sampleCalls [.send 2, .server (.lock 2), .hear 2] = .blocked ∧
    (Crowd.initial d₀ us).execAll Crypto.toy (fun i => if i = 0 then sampleCalls 2 else sampleCalls i) [.send 2, .send 0] = .blocked :=
  ⟨rfl, rfl, rfl⟩

/-- The calls of `sampleCalls` in order: a schedule in which all three hear their answers, first Alice (`es₁`), then the others, who send their calls
after that. -/
theorem sampleCalls_run : ∃ (d₀ : Directory) (log₀ : List STR) (us : Nat → Client) (es₁ es₂ : List CrowdEv) (s₁ s : Crowd),
    dirAfter Crypto.toy 5 [1] [2] 10 [3] [4] [.update] = some (d₀, log₀) ∧
    (∀ i, newClient d₀.latestSTR true (Crypto.toy.signPub [1]) = some (us i)) ∧
    (Crowd.initial d₀ us).execAll Crypto.toy sampleCalls es₁ = .ok s₁ ∧ served es₁ = [0] ∧ s₁.Heard 0 = true ∧ s₁.sent 2 = false ∧
    (Crowd.initial d₀ us).execAll Crypto.toy sampleCalls (es₁ ++ es₂) = .ok s ∧ served (es₁ ++ es₂) = [0, 1, 2, 3] ∧
    s.Heard 2 = true ∧ oneByOne sampleCalls s (es₁ ++ es₂) =
      [.register 0 (some [7]) [0x61] [9, 9], .dir .update, .lookup 1 [0x61] (some [9, 9]), .lookup 2 [0x61] (some [1])] := by
  obtain ⟨d₀, log₀, us, _, _, h₀, hf, _⟩ := sampleUsers_run
  have hlt : dirUpdates [DirOp.update] + ([0, 1, 2, 3].countP fun i => (sampleCalls i).job = .epochUpdate) < 2 ^ 64 := by decide
  have i₀ := crowd_initial Crypto.toy [] sampleCalls d₀ us
  obtain ⟨es₁, s₁, a1, a2, _, a4, a5, a6⟩ := every_order h₀ sampleCalls_sane [0] i₀ ⟨rfl, rfl⟩ (by decide) (fun _ _ => ⟨rfl, rfl⟩) (by decide)
  have i₁ := crowd_execAll h₀ sampleCalls_sane es₁ i₀ (by rw [a2]; decide) s₁ a1
  rw [List.nil_append, a2] at i₁
  obtain ⟨es₂, s, b1, b2, ⟨more, b3⟩, _, _, b6⟩ := every_order h₀ sampleCalls_sane [1, 2, 3] i₁ a4 (by decide) (fun j hj => a5 j (by
    intro h
    rw [List.mem_singleton] at h
    subst h
    exact absurd hj (by decide))) hlt
  have g1 : (Crowd.initial d₀ us).execAll Crypto.toy sampleCalls (es₁ ++ es₂) = .ok s := by rw [execAll_app _ _ _ _ a1]; exact b1
  have g2 : served (es₁ ++ es₂) = [0, 1, 2, 3] := by rw [served_append, a2, b2]; rfl
  -- the answers are short
  have key : (([([DirOp.update], DirOp.register (some [7]) ⟨[0x61], [9, 9]⟩),
      ([.update, .register (some [7]) ⟨[0x61], [9, 9]⟩, .update], .keyLookup ⟨[0x61]⟩),
      ([.update, .register (some [7]) ⟨[0x61], [9, 9]⟩, .update, .keyLookup ⟨[0x61]⟩], .keyLookup ⟨[0x61]⟩)] : List (List DirOp × DirOp)).all fun p =>
      ((dirAfter Crypto.toy 5 [1] [2] 10 [3] [4] p.1).bind fun x => x.1.step Crypto.toy p.2).all fun y => y.2.all fun r =>
        decide ((Json.marshalResponse r).length ≤ 8192)) = true := by
    simp only [dirAfterE_eq, stepE_eq]; decide +kernel
  simp only [List.all_cons, List.all_nil, Bool.and_true, Bool.and_eq_true] at key
  have short₀ : ∀ (es : List CrowdEv) (s : Crowd) l, (Crowd.initial d₀ us).execAll Crypto.toy sampleCalls es = .ok s → served es = l →
      (dirUpdates [DirOp.update] + (l.countP fun i => (sampleCalls i).job = .epochUpdate) < 2 ^ 64) →
      ∀ k i rnd req op, l[k]? = some i → (sampleCalls i).job = .request rnd req → operation rnd req = some op →
      (((dirAfter Crypto.toy 5 [1] [2] 10 [3] [4] ([.update] ++ (l.take k).flatMap fun i => Job.ops (sampleCalls i).job)).bind fun x =>
        x.1.step Crypto.toy op).all fun y => y.2.all fun r => decide ((Json.marshalResponse r).length ≤ 8192)) = true →
      (s.Heard i = true ∨ ∃ resp, s.sys.phase i = .done (some (some resp)) ∧ 8192 < (Json.marshalResponse resp).length) → s.Heard i = true := by
    intro es s l g1 g2 hlt k i rnd req op hk hj hop hshort hor
    rcases hor with hh | ⟨resp, hp, hb⟩
    · exact hh
    · obtain ⟨dk, logk, dk', r, q1, q2, q3⟩ := C87_answers h₀ sampleCalls sampleCalls_sane us es s g1 (by rw [g2]; exact hlt) k i (by rw [g2]; exact hk)
      rw [g2] at q1
      rw [hp] at q3
      simp only [Phase.done.injEq, Option.some.injEq] at q3
      subst q3
      rw [hj] at q2
      simp only [Job.apply] at q2
      rw [handle_operation hop] at q2
      rw [q1, Option.bind_some, q2] at hshort
      simp only [Option.all_some, decide_eq_true_eq] at hshort
      omega
  have k01 : s₁.Heard 0 = true := short₀ es₁ s₁ _ a1 a2 (by decide) 0 0 (some [7]) _ _ rfl rfl rfl key.1 (a6 0 (by decide) (fun e => (nomatch e)))
  have k0 : s.Heard 0 = true := by
    rw [heard_iff] at k01 ⊢
    rw [b3, List.map_append]
    exact List.mem_append_left _ k01
  have k2 : s.Heard 2 = true := short₀ _ s _ g1 g2 hlt 2 2 none _ _ rfl rfl rfl key.2.1 (b6 2 (by decide) (fun e => (nomatch e)))
  have k3 : s.Heard 3 = true := short₀ _ s _ g1 g2 hlt 3 3 none _ _ rfl rfl rfl key.2.2 (b6 3 (by decide) (fun e => (nomatch e)))
  refine ⟨d₀, log₀, us, es₁, es₂, s₁, s, h₀, hf, a1, a2, k01, (a5 2 (by decide)).2, g1, g2, k2, ?_⟩
  simp only [oneByOne, g2, List.flatMap_cons, List.flatMap_nil, k0, k2, k3]
  rfl

/-- What the three hear: `C87_everybody_served` applies (and so do the theorems with fewer hypotheses). -/
example : ∃ (d₀ : Directory) (us : Nat → Client) (es : List CrowdEv) (s : Crowd),
    (Crowd.initial d₀ us).execAll Crypto.toy sampleCalls es = .ok s ∧ served es = [0, 1, 2, 3] ∧
    (s.heard.filter (·.2.user = 0)).map (fun x => x.2.outline) = [⟨0, [0x61], some [9, 9], none, ReqSuccess, [[9, 9]]⟩] ∧
    (s.heard.filter (·.2.user = 1)).map (fun x => x.2.outline) = [⟨1, [0x61], some [9, 9], none, ReqSuccess, [[9, 9]]⟩] ∧
    (s.heard.filter (·.2.user = 2)).map (fun x => x.2.outline) = [⟨2, [0x61], some [1], some CheckBindingsDiffer, ReqSuccess, [[9, 9]]⟩] := by
  obtain ⟨d₀, log₀, us, es₁, es₂, s₁, s, h₀, hf, _, _, _, _, g1, g2, _, hops⟩ := sampleCalls_run
  have served := fun u => C87_everybody_served h₀ sampleCalls sampleCalls_sane us hf _ s g1 (by rw [hops]; decide) (by rw [hops]; decide +kernel)
    (fun _ _ => rfl) (by rw [hops]; decide +kernel) u
  rw [hops] at served
  refine ⟨d₀, us, es₁ ++ es₂, s, g1, g2, ?_, ?_, ?_⟩ <;> rw [served] <;> decide +kernel

/-- `C87_real_time` applies: Alice has heard her answer before Bob sends his call. -/
example : ∃ (d₀ : Directory) (us : Nat → Client) (es₁ es₂ : List CrowdEv) (s₁ s : Crowd) (x y : Nat × Heard),
    (Crowd.initial d₀ us).execAll Crypto.toy sampleCalls es₁ = .ok s₁ ∧ (Crowd.initial d₀ us).execAll Crypto.toy sampleCalls (es₁ ++ es₂) = .ok s ∧
    x ∈ s₁.heard ∧ y ∈ s.heard ∧ y.1 = 2 ∧ s₁.sent y.1 = false ∧ (∀ k ∈ keysShown x.2.resp, y.2.name = x.2.name → ShowsKey k y.2.outline) := by
  obtain ⟨d₀, log₀, us, es₁, es₂, s₁, s, h₀, hf, a1, _, k0, hsent, g1, g2, k2, hops⟩ := sampleCalls_run
  obtain ⟨x, hx, _⟩ := List.mem_map.mp ((heard_iff _ _).mp k0)
  obtain ⟨y, hy, hy2⟩ := List.mem_map.mp ((heard_iff _ _).mp k2)
  refine ⟨d₀, us, es₁, es₂, s₁, s, x, y, a1, g1, hx, hy, hy2, by rw [hy2]; exact hsent, fun k hk hn => ?_⟩
  exact C87_real_time h₀ sampleCalls sampleCalls_sane us es₁ es₂ s₁ s a1 g1 (by rw [hops]; decide) (by rw [hops]; decide +kernel) x hx k hk y hy
    (by rw [hy2]; exact hsent) hn

end Coniks.Props
