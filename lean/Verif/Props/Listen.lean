import Verif.Proofs.Listen
import Verif.Proofs.Url
import Verif.Props.Cli
/-
C79: a server that starts is reachable at exactly its addresses, with the permissions of the entry dialled; one that cannot listen on all of
them serves nobody; after an orderly shutdown it can be started again. After a crash it cannot, if it has a Unix socket: that part of the claim is
refuted, with the exact condition.
-/
namespace Coniks.Props
open Coniks Spec Json ListenProofs

/-! ### Starting -/

/-- C79: a server starts exactly if every entry asks for something that can be listened on, nothing on the machine is in the way of any of them, and
no two of them are in each other's way. -/
theorem C79_start_iff (M : Machine) (o : Os) (pid : Nat) (addrs : List AddressToml) :
    (o.start M pid addrs).2 = true ↔
      ∃ bs : List Bound, bs.length = addrs.length ∧ (∀ x ∈ addrs.zip bs, AsksFor M x.1 x.2) ∧ (∀ b ∈ bs, Free o b) ∧ bs.Pairwise Apart := by
  constructor
  · intro h
    obtain ⟨bs, h1, h2, h3, h4, _⟩ := start_ok h
    exact ⟨bs, h1, h2, h3, h4⟩
  · rintro ⟨bs, h1, h2, h3, h4⟩
    rw [start_of h1 h2 h3 h4]

/-- C79: all or nothing. If one entry cannot be listened on, then after the failed start nobody can reach anything that could not be reached before, and
every server that ran before still answers as before; but the Unix sockets of the entries before the failing one leave their files behind. -/
theorem C79_failed_start (M : Machine) (files : Place → Bool) (evs : List OsEv) (pid : Nat) (addrs : List AddressToml)
    (hi : Idle ((booted files).run M evs) pid) (hfail : (((booted files).run M evs).start M pid addrs).2 = false) :
    (((booted files).run M evs).start M pid addrs).1.socks = ((booted files).run M evs).socks ∧
    (∀ c, (((booted files).run M evs).start M pid addrs).1.dial M c = ((booted files).run M evs).dial M c) ∧
    ∃ (k : Nat) (bs : List Bound), k < addrs.length ∧ bs.length = k ∧ (∀ x ∈ (addrs.take k).zip bs, AsksFor M x.1 x.2) ∧
      ∀ p, (.unix p ∈ bs → ((((booted files).run M evs).start M pid addrs).1.node p).isSome = true) ∧
        (.unix p ∉ bs → (((booted files).run M evs).start M pid addrs).1.node p = ((booted files).run M evs).node p) := by
  have I : OsInv ((booted files).run M evs) := inv_run evs (inv_booted files)
  generalize (booted files).run M evs = o at hi hfail I ⊢
  have J := inv_start (M := M) I pid addrs
  obtain ⟨k, a, h1, h2, h3, h4⟩ := start_fail hfail
  obtain ⟨bs, g1, g2, g3, g4, g5⟩ := start_ok h2
  have hk : k < addrs.length := (List.getElem?_eq_some_iff.1 h1).1
  have hsocks : (o.start M pid addrs).1.socks = o.socks := by
    rw [h4, g5]
    exact addAll_kill pid _ o hi
  have hlen : bs.length = k := by rw [g1, List.length_take]; omega
  have hnode : ∀ p, (o.start M pid addrs).1.node p = (addAll pid o ((addrs.take k).zip bs)).node p := by
    intro p; rw [h4, g5]; rfl
  have hout : ∀ p, Bound.unix p ∉ bs → (o.start M pid addrs).1.node p = o.node p := by
    intro p hp
    rw [hnode]
    exact addAll_node pid _ o p fun w hw he => hp (he ▸ (List.of_mem_zip hw).2)
  have hin : ∀ p, Bound.unix p ∈ bs → ∃ id, o.next ≤ id ∧ (o.start M pid addrs).1.node p = some (.sock id) := by
    intro p hp
    have hz : ∃ w ∈ (addrs.take k).zip bs, w.2 = .unix p := by
      have : Bound.unix p ∈ ((addrs.take k).zip bs).map Prod.snd := by rw [List.map_snd_zip (by omega)]; exact hp
      obtain ⟨w, hw, he⟩ := List.mem_map.1 this
      exact ⟨w, hw, he⟩
    obtain ⟨id, h1, h2⟩ := addAll_node_some pid _ o p hz
    exact ⟨id, h1, (hnode p).trans h2⟩
  refine ⟨hsocks, ?_, k, bs, hk, hlen, g2, ?_⟩
  · intro c
    have : ∀ s, (o.start M pid addrs).1.dial M c = some s ↔ o.dial M c = some s := by
      intro s
      rw [dial_iff J, dial_iff I, hsocks]
      refine exists_congr fun b => and_congr_right fun hb => and_congr_right fun _ => forall_congr' fun p => ?_
      refine imp_congr_right fun hp => ?_
      by_cases hm : Bound.unix p ∈ bs
      · have hfree : o.node p = none := g3 _ hm
        obtain ⟨id, h1, h2⟩ := hin p hm
        rw [h2, hfree]
        refine iff_of_false ?_ (fun h => nomatch h)
        intro h
        injection h with h; injection h with h
        have := I.small _ hb
        simp only at this
        omega
      · rw [hout p hm]
    exact Option.ext this
  · intro p
    refine ⟨fun hp => ?_, hout p⟩
    obtain ⟨id, _, h⟩ := hin p hp
    rw [h]; rfl

/-! ### Being reached -/

/-- C79: a running server is reached at each of its addresses: whatever has happened on the machine before and whatever happens while it runs, a
client whose address leads to what entry `a` asks for is connected to this process, under the permissions of entry `a`. For a Unix socket, only
if nobody removes its file by hand, and if no other process still had a socket at that place when the server was started (which takes a file removed by
hand earlier). -/
theorem C79_reach (M : Machine) (files : Place → Bool) (evs₁ : List OsEv) (pid : Nat) (addrs : List AddressToml) (evs₂ : List OsEv)
    (hi : Idle ((booted files).run M evs₁) pid) (hok : (((booted files).run M evs₁).start M pid addrs).2 = true)
    (hs : ∀ e ∈ evs₂, Spares pid e) (a : AddressToml) (ha : a ∈ addrs) (b : Bound) (hb : AsksFor M a b) (c : Bytes) (hc : LeadsTo M c b)
    (hp : ∀ p, b = .unix p → (∀ e ∈ evs₂, Leaves p e) ∧ ∀ x ∈ ((booted files).run M evs₁).socks, x.2 ≠ .unix p) :
    ∃ s, ((booted files).run M (evs₁ ++ .start pid addrs :: evs₂)).dial M c = some s ∧ s.pid = pid ∧ s.ptr = a.ptr := by
  have hrun := run_start M (booted files) evs₁ pid addrs evs₂ hi
  have I : OsInv ((booted files).run M evs₁) := inv_run evs₁ (inv_booted files)
  have J : OsInv ((booted files).run M (evs₁ ++ .start pid addrs :: evs₂)) := inv_run _ (inv_booted files)
  rw [hrun] at J ⊢
  generalize (booted files).run M evs₁ = o at hi hok hp I J
  obtain ⟨bs, h1, h2, h3, h4, h5⟩ := start_ok hok
  have hmz : (a, b) ∈ addrs.zip bs := by
    obtain ⟨i, hi', hia⟩ := List.getElem_of_mem ha
    have hib : i < bs.length := by omega
    have hmem : (addrs[i], bs[i]) ∈ addrs.zip bs := by
      have := List.getElem_mem (l := addrs.zip bs) (n := i) (by simp; omega)
      rwa [List.getElem_zip] at this
    have := h2 _ hmem
    rw [hia] at this
    rw [asks_unique hb this, ← hia]
    exact hmem
  obtain ⟨x, hx, hpid, hptr, hxb, hfile⟩ := addAll_made pid _ o (by rw [List.map_snd_zip (by omega)]; exact h4) _ hmz
  rw [h5] at J ⊢
  refine ⟨x.1, (dial_iff J c x.1).2 ⟨b, ?_, hc, ?_⟩, hpid, hptr⟩
  · have := (run_socks (M := M) evs₂ (addAll pid o (addrs.zip bs)) hs x hpid).2 hx
    rw [show (x.1, b) = x from Prod.ext rfl hxb.symm]
    exact this
  · intro p hbp
    obtain ⟨g1, g2⟩ := hp p hbp
    refine (run_file evs₂ _ hs g1 (hfile p hbp) ?_).1
    intro y hy hyb
    rcases addAll_socks pid _ o y hy with hm | ⟨hm, _⟩
    · exact absurd hyb (g2 y hm)
    · exact hm

theorem os_run_snoc (M : Machine) (o : Os) (evs : List OsEv) (e : OsEv) : o.run M (evs ++ [e]) = (o.run M evs).step M e := by
  unfold Os.run
  rw [List.foldl_append]
  rfl

/-- where the sockets on a machine come from -/
theorem sock_history (M : Machine) (files : Place → Bool) : ∀ (r : List OsEv) (x : Sock × Bound), x ∈ ((booted files).run M r.reverse).socks →
    ∃ evs₁ addrs evs₂, r.reverse = evs₁ ++ .start x.1.pid addrs :: evs₂ ∧ Idle ((booted files).run M evs₁) x.1.pid ∧
      (((booted files).run M evs₁).start M x.1.pid addrs).2 = true ∧ (∀ e ∈ evs₂, e ≠ .interrupt x.1.pid ∧ e ≠ .kill x.1.pid) ∧
      ∃ a ∈ addrs, a.ptr = x.1.ptr ∧ AsksFor M a x.2
  | [], _, hx => nomatch hx
  | e :: r, x, hx => by
    rw [List.reverse_cons, os_run_snoc] at hx
    have old : x ∈ ((booted files).run M r.reverse).socks → (e ≠ .interrupt x.1.pid ∧ e ≠ .kill x.1.pid) → ∃ evs₁ addrs evs₂,
        (e :: r).reverse = evs₁ ++ .start x.1.pid addrs :: evs₂ ∧ Idle ((booted files).run M evs₁) x.1.pid ∧
        (((booted files).run M evs₁).start M x.1.pid addrs).2 = true ∧ (∀ e ∈ evs₂, e ≠ .interrupt x.1.pid ∧ e ≠ .kill x.1.pid) ∧
        ∃ a ∈ addrs, a.ptr = x.1.ptr ∧ AsksFor M a x.2 := by
      intro hm he
      obtain ⟨evs₁, addrs, evs₂, h1, h2, h3, h4, h5⟩ := sock_history M files r x hm
      refine ⟨evs₁, addrs, evs₂ ++ [e], ?_, h2, h3, ?_, h5⟩
      · rw [List.reverse_cons, h1, List.append_assoc, List.cons_append]
      · intro e' he'
        rcases List.mem_append.1 he' with h | h
        · exact h4 e' h
        · rw [List.mem_singleton] at h
          rw [h]; exact he
    cases e with
    | start q addrs =>
      have he : OsEv.start q addrs ≠ .interrupt x.1.pid ∧ OsEv.start q addrs ≠ .kill x.1.pid := ⟨fun h => (nomatch h), fun h => (nomatch h)⟩
      change x ∈ (if _ then _ else _ : Os).socks at hx
      split at hx
      · exact old hx he
      · rename_i hidle
        have hidle' : Idle ((booted files).run M r.reverse) q := any_idle.1 (by simpa using hidle)
        cases h : (((booted files).run M r.reverse).start M q addrs).2 with
        | false =>
          obtain ⟨k, a, _, h2, _, h4⟩ := start_fail h
          obtain ⟨bs, _, _, _, _, h5⟩ := start_ok h2
          rw [h4, h5, addAll_kill q _ _ hidle'] at hx
          exact old hx he
        | true =>
          obtain ⟨bs, _, h2, _, _, h5⟩ := start_ok h
          rw [h5] at hx
          rcases addAll_socks q _ _ x hx with hm | ⟨hp, _, a, ha, hptr⟩
          · exact old hm he
          · subst hp
            exact ⟨r.reverse, addrs, [], by rw [List.reverse_cons], hidle', h, fun e he => (nomatch he), a, (List.of_mem_zip ha).1, hptr.symm, h2 _ ha⟩
    | interrupt q =>
      have hm := List.mem_filter.1 hx
      have hq := of_decide_eq_true hm.2
      exact old hm.1 ⟨fun h => hq (by injection h with h; exact h.symm), fun h => (nomatch h)⟩
    | kill q =>
      have hm := List.mem_filter.1 hx
      have hq := of_decide_eq_true hm.2
      exact old hm.1 ⟨fun h => (nomatch h), fun h => hq (by injection h with h; exact h.symm)⟩
    | remove p => exact old hx ⟨fun h => (nomatch h), fun h => (nomatch h)⟩
    | create p => exact old hx ⟨fun h => (nomatch h), fun h => (nomatch h)⟩

/-- C79: nobody else answers. In any history of the machine, if a client's address is answered, then by a process that was started successfully, has not
been interrupted or killed since, and one of whose entries asks for a socket that the address leads to; and the permissions are those of such an
entry. -/
theorem C79_who_answers (M : Machine) (files : Place → Bool) (evs : List OsEv) (c : Bytes) (s : Sock)
    (h : ((booted files).run M evs).dial M c = some s) :
    ∃ evs₁ addrs evs₂, evs = evs₁ ++ .start s.pid addrs :: evs₂ ∧ Idle ((booted files).run M evs₁) s.pid ∧
      (((booted files).run M evs₁).start M s.pid addrs).2 = true ∧ (∀ e ∈ evs₂, e ≠ .interrupt s.pid ∧ e ≠ .kill s.pid) ∧
      ∃ a ∈ addrs, a.ptr = s.ptr ∧ ∃ b, AsksFor M a b ∧ LeadsTo M c b := by
  obtain ⟨b, hm, hl, _⟩ := (dial_iff (inv_run evs (inv_booted files)) c s).1 h
  have := sock_history M files evs.reverse (s, b)
  rw [List.reverse_reverse] at this
  obtain ⟨evs₁, addrs, evs₂, h1, h2, h3, h4, a, ha, hptr, hask⟩ := this hm
  exact ⟨evs₁, addrs, evs₂, h1, h2, h3, h4, a, ha, hptr, b, hask, hl⟩

/-! ### Starting again -/

/-- the situation of the next two theorems: the sockets of a running server, and of the others -/
theorem running (M : Machine) (files : Place → Bool) (evs₁ : List OsEv) (pid : Nat) (addrs : List AddressToml) (evs₂ : List OsEv)
    (hi : Idle ((booted files).run M evs₁) pid) (hok : (((booted files).run M evs₁).start M pid addrs).2 = true) (hs : ∀ e ∈ evs₂, Spares pid e) :
    ∃ bs : List Bound, bs.length = addrs.length ∧ (∀ x ∈ addrs.zip bs, AsksFor M x.1 x.2) ∧ bs.Pairwise Apart ∧
      (∀ b ∈ bs, ∃ x ∈ ((booted files).run M (evs₁ ++ .start pid addrs :: evs₂)).socks, x.1.pid = pid ∧ x.2 = b) ∧
      ∀ e, .tcp e ∈ bs → ∀ x ∈ ((booted files).run M (evs₁ ++ .start pid addrs :: evs₂)).socks, x.1.pid ≠ pid → ∀ e', x.2 = .tcp e' → ¬ Overlap e e' := by
  have hrun := run_start M (booted files) evs₁ pid addrs evs₂ hi
  have J : OsInv ((booted files).run M (evs₁ ++ .start pid addrs :: evs₂)) := inv_run _ (inv_booted files)
  rw [hrun] at J ⊢
  generalize (booted files).run M evs₁ = o at hi hok J
  obtain ⟨bs, h1, h2, h3, h4, h5⟩ := start_ok hok
  rw [h5] at J ⊢
  have made : ∀ b ∈ bs, ∃ x ∈ ((addAll pid o (addrs.zip bs)).run M evs₂).socks, x.1.pid = pid ∧ x.2 = b := by
    intro b hb
    have hz : b ∈ (addrs.zip bs).map Prod.snd := by rw [List.map_snd_zip (by omega)]; exact hb
    obtain ⟨y, hy, rfl⟩ := List.mem_map.1 hz
    obtain ⟨x, hx, hp, _, hb', _⟩ := addAll_made pid _ o (by rw [List.map_snd_zip (by omega)]; exact h4) y hy
    exact ⟨x, (run_socks evs₂ _ hs x hp).2 hx, hp, hb'⟩
  refine ⟨bs, h1, h2, h4, made, ?_⟩
  intro e he x hx hp e' he' hov
  obtain ⟨y, hy, hyp, hyb⟩ := made _ he
  have key : ∀ {l : List (Sock × Bound)}, l.Pairwise (fun x y => ∀ e e', x.2 = .tcp e → y.2 = .tcp e' → ¬ Overlap e e') → ∀ x ∈ l, ∀ y ∈ l, x ≠ y →
      ∀ e e', x.2 = .tcp e → y.2 = .tcp e' → ¬ Overlap e e' := by
    intro l hl
    induction hl with
    | nil => intro x hx; cases hx
    | cons h _ ih =>
      intro x hx y hy hne e e' h1 h2 ho
      rcases List.mem_cons.1 hx with k1 | k1 <;> rcases List.mem_cons.1 hy with k2 | k2
      · exact hne (k1.trans k2.symm)
      · rw [k1] at h1; exact h y k2 e e' h1 h2 ho
      · rw [k2] at h2; exact h x k1 e' e h2 h1 (overlap_symm ho)
      · exact ih x k1 y k2 hne e e' h1 h2 ho
  exact key J.tcp y hy x hx (fun h => hp (h ▸ hyp)) e e' hyb he' hov

/-- C79: after an orderly shutdown the same configuration starts again, under any process number, whatever happened before and while the server ran
(files removed or made by hand, other servers started, stopped and killed). -/
theorem C79_restart (M : Machine) (files : Place → Bool) (evs₁ : List OsEv) (pid : Nat) (addrs : List AddressToml) (evs₂ : List OsEv)
    (hi : Idle ((booted files).run M evs₁) pid) (hok : (((booted files).run M evs₁).start M pid addrs).2 = true) (hs : ∀ e ∈ evs₂, Spares pid e)
    (pid' : Nat) :
    (((booted files).run M (evs₁ ++ .start pid addrs :: evs₂ ++ [.interrupt pid])).start M pid' addrs).2 = true := by
  obtain ⟨bs, h1, h2, h4, made, tcp⟩ := running M files evs₁ pid addrs evs₂ hi hok hs
  rw [C79_start_iff]
  refine ⟨bs, h1, h2, ?_, h4⟩
  rw [os_run_snoc]
  generalize (booted files).run M (evs₁ ++ .start pid addrs :: evs₂) = o at made tcp
  intro b hb
  cases b with
  | tcp e =>
    intro x hx e' he'
    have hm := List.mem_filter.1 hx
    exact tcp e hb x hm.1 (of_decide_eq_true hm.2) e' he'
  | unix p =>
    show (if _ then none else o.node p) = none
    obtain ⟨x, hx, hp, hxb⟩ := made _ hb
    rw [if_pos]
    rw [List.any_eq_true]
    exact ⟨x, hx, by simp [hp, hxb]⟩
  | hidden => exact trivial

/-- C79 (refuted for crashes): a server that ended in any other way — a panic, SIGTERM, a power cut — starts again exactly if the file of each of its
Unix sockets is gone. -/
theorem C79_after_crash_partial (M : Machine) (files : Place → Bool) (evs₁ : List OsEv) (pid : Nat) (addrs : List AddressToml) (evs₂ : List OsEv)
    (hi : Idle ((booted files).run M evs₁) pid) (hok : (((booted files).run M evs₁).start M pid addrs).2 = true) (hs : ∀ e ∈ evs₂, Spares pid e)
    (pid' : Nat) :
    (((booted files).run M (evs₁ ++ .start pid addrs :: evs₂ ++ [.kill pid])).start M pid' addrs).2 = true ↔
      ∀ a ∈ addrs, ∀ p, AsksFor M a (.unix p) → ((booted files).run M (evs₁ ++ .start pid addrs :: evs₂)).node p = none := by
  obtain ⟨bs, h1, h2, h4, made, tcp⟩ := running M files evs₁ pid addrs evs₂ hi hok hs
  rw [C79_start_iff, os_run_snoc]
  generalize (booted files).run M (evs₁ ++ .start pid addrs :: evs₂) = o at made tcp
  have uniq : ∀ bs' : List Bound, bs'.length = addrs.length → (∀ x ∈ addrs.zip bs', AsksFor M x.1 x.2) → bs' = bs := by
    intro bs' g1 g2
    refine List.ext_getElem (by omega) fun i hi1 hi2 => ?_
    have m1 : (addrs[i]'(by omega), bs'[i]) ∈ addrs.zip bs' := by
      have := List.getElem_mem (l := addrs.zip bs') (n := i) (by simp; omega)
      rwa [List.getElem_zip] at this
    have m2 : (addrs[i]'(by omega), bs[i]) ∈ addrs.zip bs := by
      have := List.getElem_mem (l := addrs.zip bs) (n := i) (by simp; omega)
      rwa [List.getElem_zip] at this
    exact asks_unique (g2 _ m1) (h2 _ m2)
  constructor
  · rintro ⟨bs', g1, g2, g3, _⟩ a ha p hask
    obtain rfl := uniq bs' g1 g2
    obtain ⟨i, hi', hia⟩ := List.getElem_of_mem ha
    have m2 : (addrs[i], bs'[i]'(by omega)) ∈ addrs.zip bs' := by
      have := List.getElem_mem (l := addrs.zip bs') (n := i) (by simp; omega)
      rwa [List.getElem_zip] at this
    have hb := asks_unique hask (hia ▸ h2 _ m2)
    have := g3 _ (List.of_mem_zip m2).2
    rw [show bs'[i]'(by omega) = Bound.unix p from hb.symm] at this
    exact this
  · intro h
    refine ⟨bs, h1, h2, ?_, h4⟩
    intro b hb
    cases b with
    | tcp e =>
      intro x hx e' he'
      have hm := List.mem_filter.1 hx
      exact tcp e hb x hm.1 (of_decide_eq_true hm.2) e' he'
    | unix p =>
      have hz : Bound.unix p ∈ (addrs.zip bs).map Prod.snd := by rw [List.map_snd_zip (by omega)]; exact hb
      obtain ⟨y, hy, hyb⟩ := List.mem_map.1 hz
      exact h y.1 (List.of_mem_zip hy).1 p (hyb ▸ h2 y hy)
    | hidden => exact trivial

/-- C79 (counterexample): the file of a Unix socket is not gone by itself. If nobody removes it by hand (and no other process still had a socket at its
place when the server was started), a server with a Unix socket does not start again after a crash — under whatever process number, however often it
is tried, and whatever else has happened in between. -/
theorem C79_crash_counterexample (M : Machine) (files : Place → Bool) (evs₁ : List OsEv) (pid : Nat) (addrs : List AddressToml) (evs₂ evs₃ : List OsEv)
    (hi : Idle ((booted files).run M evs₁) pid) (hok : (((booted files).run M evs₁).start M pid addrs).2 = true) (hs : ∀ e ∈ evs₂, Spares pid e)
    (a : AddressToml) (ha : a ∈ addrs) (p : Place) (hask : AsksFor M a (.unix p))
    (hsole : ∀ x ∈ ((booted files).run M evs₁).socks, x.2 ≠ .unix p) (hl₂ : ∀ e ∈ evs₂, Leaves p e) (hl₃ : ∀ e ∈ evs₃, Leaves p e) (pid' : Nat) :
    (((booted files).run M (evs₁ ++ .start pid addrs :: evs₂ ++ .kill pid :: evs₃)).start M pid' addrs).2 = false := by
  have hrun := run_start M (booted files) evs₁ pid addrs evs₂ hi
  have hrun₃ : (booted files).run M (evs₁ ++ .start pid addrs :: evs₂ ++ .kill pid :: evs₃) =
      (((booted files).run M (evs₁ ++ .start pid addrs :: evs₂)).kill pid).run M evs₃ := by
    unfold Os.run
    rw [List.foldl_append, List.foldl_cons]
    rfl
  rw [hrun₃, hrun]
  generalize (booted files).run M evs₁ = o at hi hok hsole
  obtain ⟨bs, h1, h2, h3, h4, h5⟩ := start_ok hok
  have hmz : (a, Bound.unix p) ∈ addrs.zip bs := by
    obtain ⟨i, hi', hia⟩ := List.getElem_of_mem ha
    have hmem : (addrs[i], bs[i]'(by omega)) ∈ addrs.zip bs := by
      have := List.getElem_mem (l := addrs.zip bs) (n := i) (by simp; omega)
      rwa [List.getElem_zip] at this
    have := h2 _ hmem
    rw [hia] at this
    rw [asks_unique hask this, ← hia]
    exact hmem
  obtain ⟨x, hx, hpid, hptr, hxb, hfile⟩ := addAll_made pid _ o (by rw [List.map_snd_zip (by omega)]; exact h4) _ hmz
  rw [h5]
  obtain ⟨f2, s2⟩ := run_file (M := M) evs₂ (addAll pid o (addrs.zip bs)) hs hl₂ (hfile p rfl) (fun y hy hyb => by
    rcases addAll_socks pid _ o y hy with hm | ⟨hm, _⟩
    · exact absurd hyb (hsole y hm)
    · exact hm)
  have hnone : ∀ y ∈ (((addAll pid o (addrs.zip bs)).run M evs₂).kill pid).socks, y.2 ≠ .unix p := by
    intro y hy hyb
    have hm := List.mem_filter.1 hy
    exact of_decide_eq_true hm.2 (s2 y hm.1 hyb)
  have f3 := stale_stays (M := M) evs₃ (((addAll pid o (addrs.zip bs)).run M evs₂).kill pid) hl₃ f2 hnone
  cases hst : ((((addAll pid o (addrs.zip bs)).run M evs₂).kill pid).run M evs₃).start M pid' addrs with
  | mk o' ok =>
    cases ok with
    | false => rfl
    | true =>
      obtain ⟨bs', g1, g2, g3, _⟩ := start_ok (M := M) (pid := pid') (addrs := addrs) (by rw [hst])
      obtain ⟨i, hi', hia⟩ := List.getElem_of_mem ha
      have hmem : (addrs[i], bs'[i]'(by omega)) ∈ addrs.zip bs' := by
        have := List.getElem_mem (l := addrs.zip bs') (n := i) (by simp; omega)
        rwa [List.getElem_zip] at this
      have hb := asks_unique hask (hia ▸ g2 _ hmem)
      have := g3 _ (List.of_mem_zip hmem).2
      rw [show bs'[i]'(by omega) = Bound.unix p from hb.symm] at this
      exact absurd ((show Os.node _ p = none from this).symm.trans f3) (fun h => nomatch h)

/-! ### What addresses stand for -/

/-- the address of a file: a path that starts with a slash, without `%`, `?` and `#` -/
def PlainPath (p : Bytes) : Prop := p.head? = some 0x2F ∧ ∀ c ∈ p, c ≠ 0x25 ∧ c ≠ 0x3F ∧ c ≠ 0x23

/-- a host, with or without a port: letters, digits, and `. - _ :` -/
def PlainHost (h : Bytes) : Prop :=
  ∀ c ∈ h, (0x61 ≤ c ∧ c ≤ 0x7A) ∨ (0x41 ≤ c ∧ c ≤ 0x5A) ∨ (0x30 ≤ c ∧ c ≤ 0x39) ∨ c = 0x2E ∨ c = 0x2D ∨ c = 0x5F ∨ c = 0x3A

/-- C79: `unix://` (in any case) followed by a text that starts with a slash stands for the path that the text spells, `%` escapes included; if it
spells none, because a `%` is not followed by two hexadecimal digits, the address is refused. -/
theorem C79_unix_address (scheme e p : Bytes) (hs : AnyCase scheme (ascii "unix")) (he : e.head? = some 0x2F) (hc : ∀ c ∈ e, c ≠ 0x3F ∧ c ≠ 0x23) :
    (parseUrl (scheme ++ ascii "://" ++ e) = some ⟨ascii "unix", [], p⟩ ↔ Spells e p) ∧
    (parseUrl (scheme ++ ascii "://" ++ e) = none ↔ ∀ q, ¬ Spells e q) := by
  obtain ⟨h1, h2⟩ := anyCase_scheme hs (by decide +kernel) (by decide +kernel)
  have h3 := parse_path scheme h1 h2 (by decide +kernel) e he hc
  rw [show ascii "://" = [0x3A, 0x2F, 0x2F] by decide +kernel, h3]
  have hu := fun q => unescape_iff e.length e q (Nat.le_refl _)
  cases hx : unescape .plain e with
  | none =>
    refine ⟨iff_of_false (fun h => nomatch h) fun h => ?_, iff_of_true rfl fun q h => ?_⟩
    · rw [← hu, hx] at h; cases h
    · rw [← hu, hx] at h; cases h
  | some q =>
    have hq : Spells e q := (hu q).1 hx
    refine ⟨⟨fun h => ?_, fun h => ?_⟩, iff_of_false (fun h => nomatch h) fun h => h q hq⟩
    · injection h with h; injection h with _ _ h; rw [← h]; exact hq
    · rw [← hu, hx] at h; injection h with h; rw [h]; rfl

/-- C79: in particular, a path without `%`, `?` and `#` stands for itself. -/
theorem C79_plain_unix_address (p : Bytes) (hp : PlainPath p) : parseUrl (ascii "unix://" ++ p) = some ⟨ascii "unix", [], p⟩ := by
  have := ((C79_unix_address (ascii "unix") p p ⟨rfl, fun x hx => .inl ?_⟩ hp.1 fun c hc => ⟨(hp.2 c hc).2.1, (hp.2 c hc).2.2⟩).1).2
    (plain_spells fun c hc => (hp.2 c hc).1)
  · rw [show ascii "unix://" = ascii "unix" ++ ascii "://" by decide +kernel]
    exact this
  · revert x; decide +kernel

/-- C79: `tcp://` (in any case) followed by a plain host is that host. -/
theorem C79_tcp_address (scheme h : Bytes) (hs : AnyCase scheme (ascii "tcp")) (hh : PlainHost h) :
    parseUrl (scheme ++ ascii "://" ++ h) = some ⟨ascii "tcp", h, []⟩ := by
  obtain ⟨h1, h2⟩ := anyCase_scheme hs (by decide +kernel) (by decide +kernel)
  rw [show ascii "://" = [0x3A, 0x2F, 0x2F] by decide +kernel]
  exact parse_hosted scheme h1 h2 (by decide +kernel) h hh

/-- C79 (counterexample): a relative path after `unix://` is read as a host name. The server then listens on a name that the kernel has picked: it always
starts, and no address leads to it. -/
theorem C79_relative_path_counterexample (M : Machine) (o : Os) (pid : Nat) (a : AddressToml) (h : Bytes) (hh : PlainHost h)
    (ha : a.address = ascii "unix://" ++ h) :
    (o.start M pid [a]).2 = true ∧ (∀ b, AsksFor M a b → ∀ c, ¬ LeadsTo M c b) ∧ ∀ p, (o.start M pid [a]).1.node p = o.node p := by
  have hu : parseUrl a.address = some ⟨ascii "unix", h, []⟩ := by
    rw [ha]; exact parse_hosted (ascii "unix") (by decide +kernel) (by decide +kernel) (by decide +kernel) h hh
  have hask : AsksFor M a .hidden := .hidden _ hu rfl rfl
  have hst : o.start M pid [a] = (addAll pid o [(a, .hidden)], true) :=
    start_of (bs := [.hidden]) rfl (fun x hx => by rw [List.mem_singleton.1 hx]; exact hask) (fun b hb => by rw [List.mem_singleton.1 hb]; exact trivial)
      (List.pairwise_singleton _ _)
  rw [hst]
  refine ⟨rfl, fun b hb c hc => ?_, fun p => rfl⟩
  rw [asks_unique hb hask] at hc
  exact hc

/-! ### The configurations that `init` writes -/

/-- the socket of the default configuration -/
def coniksSock : Place := [ascii "coniks.sock", ascii "tmp"]

theorem default_unix : parseUrl (ascii "unix:///tmp/coniks.sock") = some ⟨ascii "unix", [], ascii "/tmp/coniks.sock"⟩ := by decide +kernel

theorem default_tcp : parseUrl (ascii "tcp://0.0.0.0:3000") = some ⟨ascii "tcp", ascii "0.0.0.0:3000", []⟩ := by decide +kernel

theorem default_client : parseUrl (ascii "tcp://127.0.0.1:3000") = some ⟨ascii "tcp", ascii "127.0.0.1:3000", []⟩ := by decide +kernel

theorem default_place (cwd : Place) : locate cwd (ascii "/tmp/coniks.sock") = coniksSock := by
  unfold locate
  rw [if_pos (by decide +kernel : Absolute (ascii "/tmp/coniks.sock"))]
  decide +kernel

attribute [local irreducible] coniksSock

/-- the entries of the default configuration, with the paths of certificate and key resolved to something -/
def defaultEntries (cert key : Bytes) : List AddressToml :=
  [⟨0, true, [], [], ascii "unix:///tmp/coniks.sock"⟩, ⟨1, false, cert, key, ascii "tcp://0.0.0.0:3000"⟩]

theorem default_asks (M : Machine) (cert key : Bytes) (hpath : M.pathOk (ascii "/tmp/coniks.sock") = true) (hpair : M.pair cert key = true)
    (hres : M.resolve (ascii "0.0.0.0:3000") = some ⟨none, 3000⟩) (htcp : M.tcpOk ⟨none, 3000⟩ = true) :
    ∀ x ∈ (defaultEntries cert key).zip [.unix coniksSock, .tcp ⟨none, 3000⟩], AsksFor M x.1 x.2 := by
  intro x hx
  simp only [defaultEntries, List.zip_cons_cons, List.zip_nil_right, List.mem_cons, List.not_mem_nil, or_false] at hx
  rcases hx with rfl | rfl
  · have := AsksFor.unix (M := M) (a := ⟨0, true, [], [], ascii "unix:///tmp/coniks.sock"⟩) _ default_unix rfl (by decide +kernel) hpath
    rw [default_place] at this
    exact this
  · exact AsksFor.tcp _ _ default_tcp rfl hpair hres htcp

/-- the default configuration starts on a machine where nothing is in the way -/
theorem default_starts (M : Machine) (o : Os) (pid : Nat) (cert key : Bytes) (hpath : M.pathOk (ascii "/tmp/coniks.sock") = true)
    (hpair : M.pair cert key = true) (hres : M.resolve (ascii "0.0.0.0:3000") = some ⟨none, 3000⟩) (htcp : M.tcpOk ⟨none, 3000⟩ = true)
    (hn : o.node coniksSock = none) (hf : ∀ x ∈ o.socks, ∀ e, x.2 = .tcp e → e.port ≠ 3000) : (o.start M pid (defaultEntries cert key)).2 = true := by
  rw [C79_start_iff]
  refine ⟨[.unix coniksSock, .tcp ⟨none, 3000⟩], rfl, default_asks M cert key hpath hpair hres htcp, ?_, ?_⟩
  · intro b hb
    simp only [List.mem_cons, List.not_mem_nil, or_false] at hb
    rcases hb with rfl | rfl
    · exact hn
    · exact fun x hx e' he' ho => hf x hx e' he' ho.1.symm
  · exact .cons (fun b hb => by rw [List.mem_singleton.1 hb]; exact trivial) (List.pairwise_singleton _ _)

/-- a start that fails at its second entry leaves the file of the first -/
theorem half_start (M : Machine) (files : Place → Bool) (pid : Nat) (a₀ a₁ : AddressToml) (p : Place) (ask₀ : AsksFor M a₀ (.unix p)) (ask₁ : ∀ b, ¬ AsksFor M a₁ b)
    (hfile : files p = false) :
    ((booted files).start M pid [a₀, a₁]).2 = false ∧ ((booted files).run M [.start pid [a₀, a₁]]).node p = some (.sock 0) ∧
      ((booted files).run M [.start pid [a₀, a₁]]).socks = [] := by
  have hn : (booted files).node p = none := by unfold booted; simp [hfile]
  have hl0 : (booted files).listen M pid a₀ = some ((booted files).add pid a₀.ptr (.unix p)) := listen_iff.2 ⟨_, ask₀, hn, rfl⟩
  have hl1 : ((booted files).add pid a₀.ptr (.unix p)).listen M pid a₁ = none := by
    cases h : ((booted files).add pid a₀.ptr (.unix p)).listen M pid a₁ with
    | none => rfl
    | some o' =>
      obtain ⟨b, hb, _⟩ := listen_iff.1 h
      exact absurd hb (ask₁ b)
  have hst : (booted files).start M pid [a₀, a₁] = (((booted files).add pid a₀.ptr (.unix p)).kill pid, false) := by
    unfold Os.start
    rw [hl0]
    simp only
    unfold Os.start
    rw [hl1]
  have hrun : (booted files).run M [.start pid [a₀, a₁]] = ((booted files).add pid a₀.ptr (.unix p)).kill pid := by
    have := run_start M (booted files) [] pid [a₀, a₁] [] (fun _ h => nomatch h)
    rw [List.nil_append] at this
    rw [this]
    show ((booted files).start M pid [a₀, a₁]).1 = _
    rw [hst]
  refine ⟨by rw [hst], ?_, ?_⟩
  · rw [hrun]; exact if_pos rfl
  · rw [hrun]
    simp [Os.kill, Os.add, booted]

/-- a start fails where a file is in the way -/
theorem blocked_start (M : Machine) (o : Os) (pid : Nat) (a : AddressToml) (as : List AddressToml) (p : Place) (ask : AsksFor M a (.unix p)) (n : FsNode)
    (hn : o.node p = some n) : (o.start M pid (a :: as)).2 = false := by
  have : o.listen M pid a = none := by
    cases hl : o.listen M pid a with
    | none => rfl
    | some o' =>
      obtain ⟨b, hb, hf, _⟩ := listen_iff.1 hl
      rw [asks_unique hb ask] at hf
      exact absurd ((show o.node p = none from hf).symm.trans hn) (fun h => nomatch h)
  unfold Os.start
  rw [this]

theorem removed_node (M : Machine) (o : Os) (p : Place) : (o.step M (.remove p)).node p = none := if_pos rfl

theorem removed_socks (M : Machine) (o : Os) (p : Place) : (o.step M (.remove p)).socks = o.socks := rfl

/-- C79 (counterexample): the server as `coniksserver init` sets it up, without `--cert`, does not start (there is no certificate), but it leaves
`/tmp/coniks.sock` behind. After the certificate has been made it does not start either, because of that file; the bot's check that the server is
up succeeds, though nobody answers. Only removing the file helps. -/
theorem C79_default_counterexample (M : Machine) (files : Place → Bool) (pid pid' : Nat) (file : Bytes) (cert key : Bytes)
    (hc : cert = resolvePath (ascii "server.pem") file) (hk : key = resolvePath (ascii "server.key") file)
    (hpath : M.pathOk (ascii "/tmp/coniks.sock") = true) (hres : M.resolve (ascii "0.0.0.0:3000") = some ⟨none, 3000⟩) (htcp : M.tcpOk ⟨none, 3000⟩ = true)
    (hfile : files coniksSock = false) (hpair : M.pair cert key = false) (M' : Machine) (hM' : M' = { M with pair := fun _ _ => true }) :
    (defaultServer file).addresses = defaultEntries (ascii "server.pem") (ascii "server.key") ∧
    ((booted files).start M pid (defaultEntries cert key)).2 = false ∧
    (((booted files).run M [.start pid (defaultEntries cert key)]).start M' pid' (defaultEntries cert key)).2 = false ∧
    ((booted files).run M [.start pid (defaultEntries cert key)]).botSeesServer M defaultBotAddress = true ∧
    ((booted files).run M [.start pid (defaultEntries cert key)]).dialUnix M defaultBotAddress = none ∧
    (((booted files).run M [.start pid (defaultEntries cert key), .remove coniksSock]).start M' pid' (defaultEntries cert key)).2 = true := by
  have hcert : M.pair cert key = false := hpair
  clear hpair hc hk
  have ask₀ : AsksFor M ⟨0, true, [], [], ascii "unix:///tmp/coniks.sock"⟩ (.unix coniksSock) := by
    have := AsksFor.unix (M := M) (a := ⟨0, true, [], [], ascii "unix:///tmp/coniks.sock"⟩) _ default_unix rfl (by decide +kernel) hpath
    rw [default_place] at this
    exact this
  have ask₀' : AsksFor M' ⟨0, true, [], [], ascii "unix:///tmp/coniks.sock"⟩ (.unix coniksSock) := by
    subst hM'
    have := AsksFor.unix (M := { M with pair := fun _ _ => true }) (a := ⟨0, true, [], [], ascii "unix:///tmp/coniks.sock"⟩) _ default_unix rfl (by decide +kernel) hpath
    rw [default_place] at this
    exact this
  have ask₁ : ∀ b, ¬ AsksFor M ⟨1, false, cert, key, ascii "tcp://0.0.0.0:3000"⟩ b := by
    intro b hb
    cases hb with
    | tcp u e hu hs hp hr ht => rw [hcert] at hp; cases hp
    | unix u hu hs hp hk => rw [default_tcp] at hu; injection hu with hu; subst hu; exact schemes_differ hs
    | hidden u hu hs hp => rw [default_tcp] at hu; injection hu with hu; subst hu; exact schemes_differ hs
  obtain ⟨h1, h2, h3⟩ := half_start M files pid _ _ coniksSock ask₀ ask₁ hfile
  rw [show [⟨0, true, [], [], ascii "unix:///tmp/coniks.sock"⟩, ⟨1, false, cert, key, ascii "tcp://0.0.0.0:3000"⟩] = defaultEntries cert key from rfl] at h1 h2 h3
  have hrun2 : (booted files).run M [.start pid (defaultEntries cert key), .remove coniksSock] =
      ((booted files).run M [.start pid (defaultEntries cert key)]).step M (.remove coniksSock) := os_run_snoc M _ [_] _
  have hplace : locate M.cwd defaultBotAddress = coniksSock := default_place M.cwd
  refine ⟨rfl, h1, blocked_start M' _ pid' _ _ coniksSock ask₀' _ h2, ?_, ?_, ?_⟩
  · unfold Os.botSeesServer
    rw [hplace]
    rw [show ((booted files).run M [.start pid (defaultEntries cert key)]).node coniksSock = some (.sock 0) from h2]
    decide +kernel
  · unfold Os.dialUnix
    rw [hplace]
    rw [show ((booted files).run M [.start pid (defaultEntries cert key)]).node coniksSock = some (.sock 0) from h2,
      show ((booted files).run M [.start pid (defaultEntries cert key)]).socks = [] from h3]
    split <;> rfl
  · rw [hrun2]
    subst hM'
    refine default_starts _ _ pid' cert key hpath rfl hres htcp (removed_node M _ coniksSock) ?_
    intro x hx
    rw [removed_socks, h3] at hx
    cases hx

/-- C79: with certificates, the bot as `coniksbot init` sets it up talks to the entry of the default server that takes registrations, as long as the server
runs and nobody removes its socket. -/
theorem C79_default_bot (M : Machine) (files : Place → Bool) (evs₁ evs₂ : List OsEv) (pid : Nat) (cert key : Bytes)
    (hpath : M.pathOk (ascii "/tmp/coniks.sock") = true)
    (hi : Idle ((booted files).run M evs₁) pid) (hok : (((booted files).run M evs₁).start M pid (defaultEntries cert key)).2 = true)
    (hs : ∀ e ∈ evs₂, Spares pid e) (hl : ∀ e ∈ evs₂, Leaves coniksSock e) (hsole : ∀ x ∈ ((booted files).run M evs₁).socks, x.2 ≠ .unix coniksSock) :
    ∃ s, ((booted files).run M (evs₁ ++ .start pid (defaultEntries cert key) :: evs₂)).dialUnix M defaultBotAddress = some s ∧ s.pid = pid ∧
      permsMap ((defaultEntries cert key).map fun a => ⟨a.ptr, a.allowRegistration⟩) s.ptr RegistrationType = true := by
  have ask0 : AsksFor M ⟨0, true, [], [], ascii "unix:///tmp/coniks.sock"⟩ (.unix coniksSock) := by
    have := AsksFor.unix (M := M) (a := ⟨0, true, [], [], ascii "unix:///tmp/coniks.sock"⟩) _ default_unix rfl (by decide +kernel) hpath
    rw [default_place] at this
    exact this
  obtain ⟨s, h1, h2, h3⟩ := C79_reach M files evs₁ pid (defaultEntries cert key) evs₂ hi hok hs _ (.head _) _ ask0 (ascii "unix:///tmp/coniks.sock")
    ⟨_, default_unix, rfl, by decide +kernel, default_place M.cwd⟩ (fun p hp => by injection hp with hp; subst hp; exact ⟨hl, hsole⟩)
  refine ⟨s, ?_, h2, ?_⟩
  · unfold Os.dial at h1
    rw [default_unix] at h1
    simp only at h1
    rw [if_neg schemes_differ.symm, if_pos trivial] at h1
    exact h1
  · rw [h3]
    rfl

/-- C79 (counterexample): the client as `coniksclient init` sets it up cannot register any name at the server as `coniksserver init` sets it up: its
registration address leads to the entry that does not take registrations. -/
theorem C79_default_client_counterexample (C : Crypto) (M : Machine) (files : Place → Bool) (evs₁ evs₂ : List OsEv) (pid : Nat) (cert key : Bytes)
    (hpair : M.pair cert key = true)
    (hres : M.resolve (ascii "0.0.0.0:3000") = some ⟨none, 3000⟩) (htcp : M.tcpOk ⟨none, 3000⟩ = true)
    (hlo : ∃ ip, M.resolve (ascii "127.0.0.1:3000") = some ⟨some ip, 3000⟩)
    (hi : Idle ((booted files).run M evs₁) pid) (hok : (((booted files).run M evs₁).start M pid (defaultEntries cert key)).2 = true)
    (hs : ∀ e ∈ evs₂, Spares pid e) (file : Bytes) (conf : CliConf) (hconf : conf = ⟨(defaultClient file).regAddress, (defaultClient file).address⟩)
    (nobody : Nat) (rnd : Option Bytes) (d : Directory) (cc : Client) (n k : Bytes) :
    cc.cliRegister C (((booted files).run M (evs₁ ++ .start pid (defaultEntries cert key) :: evs₂)).net M nobody) conf
      (permsMap ((defaultEntries cert key).map fun a => ⟨a.ptr, a.allowRegistration⟩)) rnd d n k =
    some (d, cc, ascii "Error: [coniks] Malformed message") := by
  obtain ⟨ip, hlo⟩ := hlo
  have ask1 : AsksFor M ⟨1, false, cert, key, ascii "tcp://0.0.0.0:3000"⟩ (.tcp ⟨none, 3000⟩) := .tcp _ _ default_tcp rfl hpair hres htcp
  obtain ⟨s, h1, h2, h3⟩ := C79_reach M files evs₁ pid (defaultEntries cert key) evs₂ hi hok hs _ (.tail _ (.head _)) _ ask1 (ascii "tcp://127.0.0.1:3000")
    ⟨_, ⟨some ip, 3000⟩, default_client, rfl, hlo, rfl, (by decide : (3000 : Nat) ≠ 0), .inl rfl⟩ (fun p hp => nomatch hp)
  have hreg : conf.reg = ascii "tcp://127.0.0.1:3000" := by
    subst hconf
    unfold CliConf.reg
    exact if_neg (by decide +kernel : ascii "tcp://127.0.0.1:3000" ≠ [])
  refine cliRegister_refused ?_ ?_
  · rw [hreg]
    unfold Net.usable Os.net
    simp only
    rw [default_client]
    rfl
  · rw [hreg]
    unfold Os.net
    simp only
    rw [h1]
    simp only
    rw [h3]
    rfl

/-- C79 (counterexample): stopping a server removes whatever is at the path of its socket. If the socket of a running server A was removed by hand and a
server B was started at the same path, an orderly stop of A makes B unreachable, though B keeps running. -/
theorem C79_takeover_counterexample (M : Machine) (files : Place → Bool) (a : AddressToml) (p : Place) (hask : AsksFor M a (.unix p)) (hf : files p = false)
    (A B : Nat) (hAB : A ≠ B) (c : Bytes) (hc : LeadsTo M c (.unix p)) :
    (∃ s, ((booted files).run M [.start A [a], .remove p, .start B [a]]).dial M c = some s ∧ s.pid = B) ∧
    ((booted files).run M [.start A [a], .remove p, .start B [a], .interrupt A]).dial M c = none ∧
    ∃ x ∈ ((booted files).run M [.start A [a], .remove p, .start B [a], .interrupt A]).socks, x.1.pid = B := by
  have hn : (booted files).node p = none := by unfold booted; simp [hf]
  have h1 : (booted files).step M (.start A [a]) = (booted files).add A a.ptr (.unix p) := by
    have := run_start M (booted files) [] A [a] [] (fun _ h => nomatch h)
    refine this.trans ?_
    show ((booted files).start M A [a]).1 = _
    unfold Os.start
    rw [listen_iff.2 ⟨_, hask, hn, rfl⟩]
    rfl
  generalize ho2 : ((booted files).add A a.ptr (.unix p)).step M (.remove p) = o2
  have s2 : o2.socks = [(⟨0, A, a.ptr⟩, .unix p)] := by rw [← ho2]; rfl
  have n2 : o2.node p = none := by rw [← ho2]; exact if_pos rfl
  have x2 : o2.next = 1 := by rw [← ho2]; rfl
  have h3 : o2.step M (.start B [a]) = o2.add B a.ptr (.unix p) := by
    have := run_start M o2 [] B [a] [] (fun x hx h => by
      have hx' : x ∈ o2.socks := hx
      rw [s2, List.mem_singleton] at hx'
      rw [hx'] at h
      exact hAB h)
    refine this.trans ?_
    show (o2.start M B [a]).1 = _
    unfold Os.start
    rw [listen_iff.2 ⟨_, hask, n2, rfl⟩]
    rfl
  have r3 : (booted files).run M [.start A [a], .remove p, .start B [a]] = o2.add B a.ptr (.unix p) := by
    unfold Os.run
    simp only [List.foldl_cons, List.foldl_nil]
    rw [h1, ho2, h3]
  have r4 : (booted files).run M [.start A [a], .remove p, .start B [a], .interrupt A] = (o2.add B a.ptr (.unix p)).interrupt A := by
    unfold Os.run
    simp only [List.foldl_cons, List.foldl_nil]
    rw [h1, ho2, h3]
    rfl
  have I3 := inv_run (M := M) [.start A [a], .remove p, .start B [a]] (inv_booted files)
  have I4 := inv_run (M := M) [.start A [a], .remove p, .start B [a], .interrupt A] (inv_booted files)
  rw [r3] at I3 ⊢
  rw [r4] at I4 ⊢
  refine ⟨⟨⟨1, B, a.ptr⟩, (dial_iff I3 c _).2 ⟨.unix p, ?_, hc, ?_⟩, rfl⟩, ?_, ?_⟩
  · rw [← x2]; exact .head _
  · intro q hq
    injection hq with hq
    subst hq
    rw [← x2]
    exact if_pos rfl
  · have hnone : ((o2.add B a.ptr (.unix p)).interrupt A).node p = none := by
      show (if _ then none else _) = _
      rw [if_pos]
      rw [List.any_eq_true]
      refine ⟨(⟨0, A, a.ptr⟩, .unix p), .tail _ ?_, by simp⟩
      rw [s2]; exact .head _
    cases hd : ((o2.add B a.ptr (.unix p)).interrupt A).dial M c with
    | none => rfl
    | some s =>
      obtain ⟨b, hb, hl, hfile⟩ := (dial_iff I4 c s).1 hd
      have hbp : b = .unix p := by
        have hm := (List.mem_filter.1 hb).1
        rcases List.mem_cons.1 hm with h | h
        · exact (Prod.mk.inj h).2
        · rw [s2, List.mem_singleton] at h
          exact (Prod.mk.inj h).2
      exact absurd ((hfile p hbp).symm.trans hnone) (fun h => nomatch h)
  · refine ⟨(⟨o2.next, B, a.ptr⟩, .unix p), ?_, rfl⟩
    refine List.mem_filter.2 ⟨.head _, decide_eq_true (fun h => hAB h.symm)⟩

/-! ### The hypotheses are met -/

/-- a machine on which `/tmp` can be written, port 3000 can be bound, and certificates are in place -/
def sampleMachine : Machine :=
  { cwd := [ascii "op", ascii "home"]
    pair := fun c k => c = ascii "/s/server.pem" && k = ascii "/s/server.key"
    resolve := fun h => if h = ascii "0.0.0.0:3000" then some ⟨none, 3000⟩ else if h = ascii "127.0.0.1:3000" then some ⟨some [127, 0, 0, 1], 3000⟩ else none
    tcpOk := fun _ => true
    pathOk := fun p => p.length ≤ 107
    loopback := [127, 0, 0, 1] }

def sampleEntries : List AddressToml := defaultEntries (ascii "/s/server.pem") (ascii "/s/server.key")

theorem sample_start (o : Os) (pid : Nat) (hn : o.node coniksSock = none) (hf : o.socks = []) : (o.start sampleMachine pid sampleEntries).2 = true :=
  default_starts sampleMachine o pid _ _ (by decide +kernel) (by decide +kernel) (by decide +kernel) rfl hn (by rw [hf]; exact fun _ h => nomatch h)

/-- `C79_reach`, `C79_restart`, `C79_after_crash_partial`: the default server is reached through both of its addresses while other things happen, starts
again after a stop, and not after a crash -/
example :
    (∃ s, ((booted fun _ => false).run sampleMachine [.start 1 sampleEntries, .create [ascii "x"], .start 2 sampleEntries]).dial sampleMachine
      (ascii "tcp://127.0.0.1:3000") = some s ∧ s.pid = 1 ∧ s.ptr = 1) ∧
    (∃ s, ((booted fun _ => false).run sampleMachine [.start 1 sampleEntries, .create [ascii "x"], .start 2 sampleEntries]).dial sampleMachine
      (ascii "unix:../../tmp//coniks.sock") = none ∧
      ((booted fun _ => false).run sampleMachine [.start 1 sampleEntries, .create [ascii "x"], .start 2 sampleEntries]).dial sampleMachine
      (ascii "UNIX:/tmp/x/../coniks%2Esock") = some s ∧ s.pid = 1 ∧ s.ptr = 0) ∧
    (((booted fun _ => false).run sampleMachine [.start 1 sampleEntries, .interrupt 1]).start sampleMachine 3 sampleEntries).2 = true ∧
    (((booted fun _ => false).run sampleMachine [.start 1 sampleEntries, .kill 1, .create [ascii "x"]]).start sampleMachine 3 sampleEntries).2 = false := by
  have h0 : Idle (booted fun _ => false) 1 := fun _ h => nomatch h
  have hst := sample_start (booted fun _ => false) 1 rfl rfl
  have ask := default_asks sampleMachine (ascii "/s/server.pem") (ascii "/s/server.key") (by decide +kernel) (by decide +kernel) (by decide +kernel) rfl
  have hsp : ∀ e ∈ [OsEv.create [ascii "x"], OsEv.start 2 sampleEntries], Spares 1 e := by
    intro e he
    simp only [List.mem_cons, List.not_mem_nil, or_false] at he
    rcases he with rfl | rfl
    · exact trivial
    · exact (by decide : (2 : Nat) ≠ 1)
  refine ⟨?_, ?_, ?_, ?_⟩
  · exact C79_reach sampleMachine (fun _ => false) [] 1 sampleEntries _ h0 hst hsp _ (.tail _ (.head _)) _ (ask _ (.tail _ (.head _))) _
      ⟨_, _, default_client, rfl, (by decide +kernel : _ = some ⟨some [127, 0, 0, 1], 3000⟩), rfl, by decide, .inl rfl⟩ (fun p hp => nomatch hp)
  · obtain ⟨s, h1, h2, h3⟩ := C79_reach sampleMachine (fun _ => false) [] 1 sampleEntries _ h0 hst hsp _ (.head _) _ (ask _ (.head _))
      (ascii "UNIX:/tmp/x/../coniks%2Esock")
      ⟨⟨ascii "unix", [], ascii "/tmp/x/../coniks.sock"⟩, by decide +kernel, rfl, by decide +kernel, by decide +kernel⟩
      (fun p _ => ⟨by
        intro e he
        simp only [List.mem_cons, List.not_mem_nil, or_false] at he
        rcases he with rfl | rfl <;> exact trivial, fun _ h => nomatch h⟩)
    refine ⟨s, ?_, h1, h2, h3⟩
    unfold Os.dial
    rw [(by decide +kernel : parseUrl (ascii "unix:../../tmp//coniks.sock") = some ⟨ascii "unix", [], []⟩)]
    simp only
    rw [if_neg schemes_differ.symm, if_pos trivial]
    rfl
  · exact C79_restart sampleMachine (fun _ => false) [] 1 sampleEntries [] h0 hst (fun _ h => nomatch h) 3
  · exact C79_crash_counterexample sampleMachine (fun _ => false) [] 1 sampleEntries [] [.create [ascii "x"]] h0 hst (fun _ h => nomatch h) _ (.head _) _
      (ask _ (.head _)) (fun _ h => nomatch h) (fun _ h => nomatch h) (fun e he => by rw [List.mem_singleton.1 he]; exact trivial) 3

/-- `C79_default_counterexample`: the same machine before the certificates are made -/
example : ((booted fun _ => false).start { sampleMachine with pair := fun _ _ => false } 1 (defaultEntries (ascii "../s/server.pem") (ascii "../s/server.key"))).2 = false ∧
    (((booted fun _ => false).run { sampleMachine with pair := fun _ _ => false } [.start 1 (defaultEntries (ascii "../s/server.pem") (ascii "../s/server.key"))]).start
      { sampleMachine with pair := fun _ _ => true } 2 (defaultEntries (ascii "../s/server.pem") (ascii "../s/server.key"))).2 = false := by
  have := C79_default_counterexample { sampleMachine with pair := fun _ _ => false } (fun _ => false) 1 2 (ascii "../s/config.toml") (ascii "../s/server.pem")
    (ascii "../s/server.key") (by decide +kernel) (by decide +kernel) (by decide +kernel) (by decide +kernel) rfl rfl rfl _ rfl
  exact ⟨this.2.1, this.2.2.1⟩

/-- `C79_default_client_counterexample`, with `alice` and the toy cryptography, against any directory -/
example (d : Directory) (cc : Client) : cc.cliRegister Crypto.toy (((booted fun _ => false).run sampleMachine [.start 1 sampleEntries]).net sampleMachine 99)
    ⟨ascii "tcp://127.0.0.1:3000", ascii "tcp://127.0.0.1:3000"⟩ (permsMap (sampleEntries.map fun a => ⟨a.ptr, a.allowRegistration⟩)) none d (ascii "alice") [1] =
    some (d, cc, ascii "Error: [coniks] Malformed message") :=
  C79_default_client_counterexample Crypto.toy sampleMachine (fun _ => false) [] [] 1 _ _ (by decide +kernel) (by decide +kernel) rfl
    ⟨[127, 0, 0, 1], by decide +kernel⟩ (fun _ h => nomatch h) (sample_start _ 1 rfl rfl) (fun _ h => nomatch h) (ascii "config.toml") _ rfl 99 none d cc _ _

/-- `C79_failed_start`, `C79_who_answers`: a second server of the same configuration fails and changes nothing; the first still answers -/
example : ∃ s, ((booted fun _ => false).run sampleMachine [.start 1 sampleEntries]).dial sampleMachine (ascii "tcp://127.0.0.1:3000") = some s ∧
    (((booted fun _ => false).run sampleMachine [.start 1 sampleEntries]).start sampleMachine 2 sampleEntries).2 = false ∧
    (((booted fun _ => false).run sampleMachine [.start 1 sampleEntries]).start sampleMachine 2 sampleEntries).1.dial sampleMachine (ascii "tcp://127.0.0.1:3000") = some s := by
  have h0 : Idle (booted fun _ => false) 1 := fun _ h => nomatch h
  have hst := sample_start (booted fun _ => false) 1 rfl rfl
  have ask := default_asks sampleMachine (ascii "/s/server.pem") (ascii "/s/server.key") (by decide +kernel) (by decide +kernel) (by decide +kernel) rfl
  obtain ⟨s, h1, h2, _⟩ := C79_reach sampleMachine (fun _ => false) [] 1 sampleEntries [] h0 hst (fun _ h => nomatch h) _ (.tail _ (.head _)) _ (ask _ (.tail _ (.head _)))
    (ascii "tcp://127.0.0.1:3000")
    ⟨_, _, default_client, rfl, (by decide +kernel : _ = some ⟨some [127, 0, 0, 1], 3000⟩), rfl, by decide, .inl rfl⟩ (fun p hp => nomatch hp)
  have hr : (booted fun _ => false).run sampleMachine [.start 1 sampleEntries] = ((booted fun _ => false).start sampleMachine 1 sampleEntries).1 :=
    run_start sampleMachine (booted fun _ => false) [] 1 sampleEntries [] h0
  obtain ⟨bs, g1, g2, g3, g4, g5⟩ := start_ok hst
  have hsock : ∀ x ∈ ((booted fun _ => false).run sampleMachine [.start 1 sampleEntries]).socks, x.1.pid = 1 := by
    rw [hr, g5]
    intro x hx
    rcases addAll_socks 1 _ _ x hx with hm | hm
    · exact nomatch hm
    · exact hm.1
  have hidle : Idle ((booted fun _ => false).run sampleMachine [.start 1 sampleEntries]) 2 := fun x hx h => by
    have := hsock x hx; omega
  have hfail : (((booted fun _ => false).run sampleMachine [.start 1 sampleEntries]).start sampleMachine 2 sampleEntries).2 = false := by
    cases hst2 : (((booted fun _ => false).run sampleMachine [.start 1 sampleEntries]).start sampleMachine 2 sampleEntries).2 with
    | false => rfl
    | true =>
      exfalso
      obtain ⟨bs', k1, k2, k3, _⟩ := (C79_start_iff sampleMachine _ 2 sampleEntries).1 hst2
      have hs' := (dial_iff (inv_run _ (inv_booted _)) _ s).1 h1
      obtain ⟨b, hb, hl, _⟩ := hs'
      have hlen : bs'.length = 2 := k1
      match bs', hlen with
      | [b0, b1], _ =>
        have e1 := asks_unique (k2 (⟨1, false, ascii "/s/server.pem", ascii "/s/server.key", ascii "tcp://0.0.0.0:3000"⟩, b1) (.tail _ (.head _)))
          (ask (_, .tcp ⟨none, 3000⟩) (.tail _ (.head _)))
        have hfree := k3 b1 (.tail _ (.head _))
        rw [show b1 = .tcp ⟨none, 3000⟩ from e1] at hfree
        cases b with
        | tcp e =>
          obtain ⟨u, e', hu, _, he', hport, hp0, _⟩ := hl
          rw [default_client] at hu
          injection hu with hu
          subst hu
          rw [(by decide +kernel : sampleMachine.resolve (ascii "127.0.0.1:3000") = some ⟨some [127, 0, 0, 1], 3000⟩)] at he'
          injection he' with he'
          subst he'
          exact hfree _ hb e rfl ⟨hport, by decide, .inl rfl⟩
        | unix p =>
          obtain ⟨u, hu, hs, _⟩ := hl
          rw [default_client] at hu
          injection hu with hu
          subst hu
          exact schemes_differ hs
        | hidden => exact hl
  refine ⟨s, h1, hfail, ?_⟩
  exact ((C79_failed_start sampleMachine (fun _ => false) [.start 1 sampleEntries] 2 sampleEntries hidle hfail).2.1 _).trans h1

/-- `C79_relative_path_counterexample` and `C79_unix_address` on concrete addresses -/
example : ((booted fun _ => false).start sampleMachine 1 [⟨5, true, [], [], ascii "unix://coniks.sock"⟩]).2 = true ∧
    parseUrl (ascii "unix:///var/run/coniks.sock") = some ⟨ascii "unix", [], ascii "/var/run/coniks.sock"⟩ ∧
    parseUrl (ascii "tcp" ++ ascii "://" ++ ascii "keys.example.org:3001") = some ⟨ascii "tcp", ascii "keys.example.org:3001", []⟩ ∧
    parseUrl (ascii "Unix" ++ ascii "://" ++ ascii "/a%20b%5A") = some ⟨ascii "unix", [], ascii "/a bZ"⟩ := by
  refine ⟨(C79_relative_path_counterexample sampleMachine _ 1 _ (ascii "coniks.sock") ?_ rfl).1, C79_plain_unix_address (ascii "/var/run/coniks.sock") ?_,
    C79_tcp_address (ascii "tcp") (ascii "keys.example.org:3001") ⟨rfl, ?_⟩ ?_, ?_⟩
  · unfold PlainHost; decide +kernel
  · unfold PlainPath; decide +kernel
  · decide +kernel
  · unfold PlainHost; decide +kernel
  · refine ((C79_unix_address (ascii "Unix") (ascii "/a%20b%5A") (ascii "/a bZ") ⟨rfl, by decide +kernel⟩ (by decide +kernel) (by decide +kernel)).1).2 ?_
    rw [show ascii "/a%20b%5A" = [0x2F, 0x61, 0x25, 0x32, 0x30, 0x62, 0x25, 0x35, 0x41] by decide +kernel,
      show ascii "/a bZ" = [0x2F, 0x61, UInt8.ofNat (16 * 2 + 0), 0x62, UInt8.ofNat (16 * 5 + 10)] by decide +kernel]
    exact .lit _ (by decide) (.lit _ (by decide) (.esc _ _ 2 0 (.inl (by decide)) (.inl (by decide)) (.lit _ (by decide)
      (.esc _ _ 5 10 (.inl (by decide)) (.inr (.inr (by decide))) .nil))))

/-- `C79_takeover_counterexample` -/
example : ((booted fun _ => false).run sampleMachine [.start 1 [⟨5, true, [], [], ascii "unix:///tmp/coniks.sock"⟩], .remove coniksSock,
      .start 2 [⟨5, true, [], [], ascii "unix:///tmp/coniks.sock"⟩], .interrupt 1]).dial sampleMachine (ascii "unix:///tmp/coniks.sock") = none := by
  have ask0 : AsksFor sampleMachine ⟨5, true, [], [], ascii "unix:///tmp/coniks.sock"⟩ (.unix coniksSock) := by
    have := AsksFor.unix (M := sampleMachine) (a := ⟨5, true, [], [], ascii "unix:///tmp/coniks.sock"⟩) _ default_unix rfl (by decide +kernel) (by decide +kernel)
    rw [default_place] at this
    exact this
  exact (C79_takeover_counterexample sampleMachine (fun _ => false) _ coniksSock ask0 rfl 1 2 (by decide) (ascii "unix:///tmp/coniks.sock")
    ⟨_, default_unix, rfl, by decide +kernel, default_place _⟩).2.1

end Coniks.Props
