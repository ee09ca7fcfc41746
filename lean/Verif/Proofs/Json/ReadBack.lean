import Verif.Proofs.Json.Read
/-
The converse of `Read.lean`: a message that says a request is read as this request.
-/
namespace Coniks.Json
open Coniks Spec

theorem fold_push {σ : Type} (f g : σ → JVal → Option σ) (com : ∀ s v w s1 s2, f s v = some s1 → g s w = some s2 → ∃ s3, f s2 v = some s3 ∧ g s1 w = some s3) :
    ∀ (vs : List JVal) (s t s2 : σ) (w : JVal), vs.foldlM f s = some t → g s w = some s2 → ∃ t', vs.foldlM f s2 = some t'
  | [], s, t, s2, w, _, _ => ⟨s2, rfl⟩
  | v :: vs, s, t, s2, w, h, hg => by
    rw [List.foldlM_cons] at h
    obtain ⟨s1, h1, h⟩ := Option.bind_eq_some_iff.mp h
    obtain ⟨s3, h3, h4⟩ := com s v w s1 s2 h1 hg
    obtain ⟨t', ht⟩ := fold_push f g com vs s1 t s3 w h h4
    refine ⟨t', ?_⟩
    rw [List.foldlM_cons, h3]
    exact ht

/-- if every field can be decoded, so can the struct -/
theorem fold_exists' {σ : Type} (names : List Bytes) (hn : (names.map foldName).Nodup) (f : Nat → σ → JVal → Option σ)
    (com : ∀ i j, i < names.length → j < names.length → i ≠ j → ∀ s v w s1 s2, f i s v = some s1 → f j s w = some s2 →
      ∃ s3, f i s2 v = some s3 ∧ f j s1 w = some s3) :
    ∀ (ms : List (Bytes × JVal)) (s : σ),
    (∀ (i : Nat) (hi : i < names.length), ∃ s', ((ms.filter fun m => foldName m.1 == foldName names[i]).map fun m => m.2).foldlM (f i) s = some s') →
    ∃ s', ms.foldlM (memberStep names f) s = some s'
  | [], s, _ => ⟨s, rfl⟩
  | (k, v) :: ms, s, h => by
    rw [List.foldlM_cons]
    cases hf : field names k with
    | none =>
      have hk : ∀ (i : Nat) (hi : i < names.length), foldName k ≠ foldName names[i] := by
        intro i hi e
        rw [(field_iff names hn k i hi).mpr e] at hf
        exact nomatch hf
      have : memberStep names f s (k, v) = some s := by simp only [memberStep, hf]
      rw [this]
      refine fold_exists' names hn f com ms s fun i hi => ?_
      have := h i hi
      rw [List.filter_cons, if_neg (by simpa using hk i hi)] at this
      exact this
    | some j =>
      have hj := field_lt hf
      have hkj := (field_iff names hn k j hj).mp hf
      have h0 := h j hj
      rw [List.filter_cons, if_pos (by simpa using hkj), List.map_cons, List.foldlM_cons] at h0
      obtain ⟨t, h0⟩ := h0
      obtain ⟨s1, h1, h2⟩ := Option.bind_eq_some_iff.mp h0
      have : memberStep names f s (k, v) = some s1 := by simp only [memberStep, hf]; exact h1
      rw [this]
      refine fold_exists' names hn f com ms s1 fun i hi => ?_
      by_cases hij : i = j
      · subst hij; exact ⟨t, h2⟩
      · have hne : foldName k ≠ foldName names[i] := by
          intro e
          rw [(field_iff names hn k i hi).mpr e] at hf
          cases hf; exact hij rfl
        obtain ⟨s', hs⟩ := h i hi
        rw [List.filter_cons, if_neg (by simpa using hne)] at hs
        exact fold_push (f i) (f j) (fun s v w s1 s2 a b => com i j hi hj hij s v w s1 s2 a b) _ s s' s1 v hs h1

/-- the same with the names compared as in the specification -/
theorem fold_exists {σ : Type} (names : List Bytes) (hn : (names.map foldName).Nodup) (f : Nat → σ → JVal → Option σ)
    (com : ∀ i j, i < names.length → j < names.length → i ≠ j → ∀ s v w s1 s2, f i s v = some s1 → f j s w = some s2 →
      ∃ s3, f i s2 v = some s3 ∧ f j s1 w = some s3)
    (ms : List (Bytes × JVal)) (s : σ)
    (h : ∀ (i : Nat) (hi : i < names.length), ∃ s', ((ms.filter fun m => sameName names[i] m.1).map fun m => m.2).foldlM (f i) s = some s')
    (ha : (names.all fun n => n.all fun b => b < 0x80) = true := by decide +kernel) :
    ∃ s', ms.foldlM (memberStep names f) s = some s' := by
  refine fold_exists' names hn f com ms s fun i hi => ?_
  have e : (fun m : Bytes × JVal => sameName names[i] m.1) = fun m => foldName m.1 == foldName names[i] := by
    funext m
    refine sameName_iff _ _ ?_
    have := List.all_eq_true.mp ha _ (List.getElem_mem hi)
    simpa using this
  rw [← e]
  exact h i hi

/-- one field of a struct -/
theorem fold_lift {σ α : Type} (g : σ → JVal → Option σ) (dec : α → JVal → Option α) (get : σ → α) (set : σ → α → σ)
    (h : ∀ s v, g s v = (dec (get s) v).map (set s)) (gs : ∀ s a, get (set s a) = a) :
    ∀ (vs : List JVal) (s : σ) (x : α), vs.foldlM dec (get s) = some x → ∃ s', vs.foldlM g s = some s'
  | [], s, x, _ => ⟨s, rfl⟩
  | v :: vs, s, x, hd => by
    rw [List.foldlM_cons] at hd
    obtain ⟨y, hy, hd⟩ := Option.bind_eq_some_iff.mp hd
    have : g s v = some (set s y) := by rw [h, hy]; rfl
    rw [List.foldlM_cons, this]
    exact fold_lift g dec get set h gs vs (set s y) x (by rw [gs]; exact hd)

theorem fold_scalar_exists {α : Type} (dec : α → JVal → Option α) (g : JVal → Option α) (h0 : ∀ a, dec a .null = some a)
    (h1 : ∀ a v, v ≠ .null → dec a v = g v) : ∀ (vs : List JVal) (a : α), (∀ v ∈ vs, v = .null ∨ ∃ x, g v = some x) → ∃ b, vs.foldlM dec a = some b
  | [], a, _ => ⟨a, rfl⟩
  | v :: vs, a, h => by
    obtain ⟨c, hc⟩ : ∃ c, dec a v = some c := by
      rcases h v (List.mem_cons_self ..) with rfl | ⟨x, hx⟩
      · exact ⟨a, h0 a⟩
      · by_cases hv : v = .null
        · subst hv; exact ⟨a, h0 a⟩
        · exact ⟨x, by rw [h1 a v hv, hx]⟩
    obtain ⟨b, hb⟩ := fold_scalar_exists dec g h0 h1 vs c fun w hw => h w (List.mem_cons_of_mem _ hw)
    exact ⟨b, by rw [List.foldlM_cons, hc]; exact hb⟩

theorem saysInt_iff (vs : List JVal) (n : Int) : vs.foldlM decInt64 0 = some n ↔ SaysInt vs n := by
  refine ⟨saysInt_of vs n, fun h => ?_⟩
  obtain ⟨b, hb⟩ := fold_scalar_exists decInt64 (fun v => match v with | .num lit => parseInt lit | _ => none) (fun _ => rfl)
    (by intro a v hv; cases v <;> first | exact absurd rfl hv | rfl) vs 0 (by
      intro v hv
      rcases h.1 v hv with h | ⟨lit, m, rfl, h⟩
      · exact .inl h
      · exact .inr ⟨m, (parseInt_iff _ _).mpr h⟩)
  obtain ⟨_, h2⟩ := saysInt_of vs b hb
  rw [hb]
  rcases h.2 with ⟨a1, a2⟩ | ⟨lit, a1, a2⟩ <;> rcases h2 with ⟨b1, b2⟩ | ⟨lit', b1, b2⟩
  · rw [a2, b2]
  · rw [a1] at b1; exact nomatch b1
  · rw [a1] at b1; exact nomatch b1
  · rw [a1] at b1; cases b1
    have := (parseInt_iff _ _).mpr a2
    rw [(parseInt_iff _ _).mpr b2] at this; exact this

theorem saysEpoch_iff (vs : List JVal) (n : UInt64) : vs.foldlM decU64 0 = some n ↔ SaysEpoch vs n := by
  refine ⟨saysEpoch_of vs n, fun h => ?_⟩
  obtain ⟨b, hb⟩ := fold_scalar_exists decU64 (fun v => match v with | .num lit => (parseUint (2 ^ 64) lit).map UInt64.ofNat | _ => none) (fun _ => rfl)
    (by intro a v hv; cases v <;> first | exact absurd rfl hv | rfl) vs 0 (by
      intro v hv
      rcases h.1 v hv with h | ⟨lit, m, rfl, h⟩
      · exact .inl h
      · refine .inr ⟨UInt64.ofNat m, ?_⟩
        simp only [(parseUint_iff _ _ _).mpr h, Option.map_some])
  obtain ⟨_, h2⟩ := saysEpoch_of vs b hb
  rw [hb]
  rcases h.2 with ⟨a1, a2⟩ | ⟨lit, a1, a2⟩ <;> rcases h2 with ⟨b1, b2⟩ | ⟨lit', b1, b2⟩
  · rw [a2, b2]
  · rw [a1] at b1; exact nomatch b1
  · rw [a1] at b1; exact nomatch b1
  · rw [a1] at b1; cases b1
    have : b.toNat = n.toNat := by rw [a2.2.1, b2.2.1]
    rw [UInt64.toNat_inj.mp this]

theorem saysString_iff (vs : List JVal) (s : Bytes) : vs.foldlM decStr [] = some s ↔ SaysString vs s := by
  refine ⟨saysString_of vs s, fun h => ?_⟩
  obtain ⟨b, hb⟩ := fold_scalar_exists decStr (fun v => match v with | .str x => some x | _ => none) (fun _ => rfl)
    (by intro a v hv; cases v <;> first | exact absurd rfl hv | rfl) vs [] (by
      intro v hv
      rcases h.1 v hv with h | ⟨x, rfl⟩
      · exact .inl h
      · exact .inr ⟨x, rfl⟩)
  obtain ⟨_, h2⟩ := saysString_of vs b hb
  rw [hb]
  rcases h.2 with ⟨a1, a2⟩ | a1 <;> rcases h2 with ⟨b1, b2⟩ | b1
  · rw [a2, b2]
  · rw [a1] at b1; exact nomatch b1
  · rw [a1] at b1; exact nomatch b1
  · rw [a1] at b1; cases b1; rfl

/-- two steps that change different fields -/
macro "diamond" h1:ident h2:ident : tactic =>
  `(tactic| (obtain ⟨x, hx, hs⟩ := Option.map_eq_some_iff.mp $h1; obtain ⟨y, hy, ht⟩ := Option.map_eq_some_iff.mp $h2; subst hs; subst ht;
             exact ⟨_, Option.map_eq_some_iff.mpr ⟨x, hx, rfl⟩, Option.map_eq_some_iff.mpr ⟨y, hy, rfl⟩⟩))

theorem registration_back {cs : List (Bytes × JVal)} {r : RegistrationRequest} (h1 : SaysString (vals "Username" cs) r.username)
    (h2 : SaysBytes (vals "Key" cs) r.key) (h3 : SaysBool (vals "AllowUnsignedKeychange" cs)) (h4 : SaysBool (vals "AllowPublicLookup" cs)) :
    decRegistration ⟨[], []⟩ (.obj cs) = some r := by
  have hex : ∃ r', decRegistration ⟨[], []⟩ (.obj cs) = some r' := by
    refine fold_exists _ (by decide +kernel) _ ?_ cs _ ?_
    · intro i j hi hj hij s v w s1 s2 a b
      simp only [List.length_cons, List.length_nil] at hi hj
      split at a
      · rename_i h0
        subst h0
        rw [if_neg (Ne.symm hij)] at b
        simp only [if_true, if_neg (Ne.symm hij)]
        split at b
        · rename_i h1; simp only [h1, if_true]; diamond a b
        · rename_i h1; simp only [h1, if_false]; diamond a b
      · rename_i h0
        simp only [if_neg h0]
        split at a
        · rename_i h1
          subst h1
          simp only [if_true, if_neg (Ne.symm hij)]
          split at b
          · rename_i h2; simp only [h2, if_true]; diamond a b
          · rename_i h2; simp only [h2, if_false]; rw [if_neg (Ne.symm hij)] at b; diamond a b
        · rename_i h1
          simp only [if_neg h1]
          split at b
          · rename_i h2; simp only [h2, if_true]; diamond a b
          · rename_i h2
            simp only [h2, if_false]
            split at b
            · rename_i h3; simp only [h3, if_true]; diamond a b
            · rename_i h3; simp only [h3, if_false]; diamond a b
    · intro i hi
      have hi' : i = 0 ∨ i = 1 ∨ i = 2 ∨ i = 3 := by
        simp only [List.length_cons, List.length_nil] at hi; omega
      rcases hi' with rfl | rfl | rfl | rfl
      · exact fold_lift _ decStr (fun r : RegistrationRequest => r.username) (fun r x => { r with username := x }) (fun _ _ => rfl) (fun _ _ => rfl) _
          ⟨[], []⟩ _ ((saysString_iff _ _).mpr h1)
      · exact fold_lift _ decBytes (fun r : RegistrationRequest => r.key) (fun r x => { r with key := x }) (fun _ _ => rfl) (fun _ _ => rfl) _
          ⟨[], []⟩ _ ((saysBytes_iff _ _).mpr h2)
      · exact fold_lift _ (fun (_ : Unit) v => (decBool false v).map fun _ => ()) (fun r : RegistrationRequest => ()) (fun r _ => r)
          (fun s v => by rw [Option.map_map]; rfl) (fun _ _ => rfl) _ ⟨[], []⟩ _ ((fold_flag _).mpr h3)
      · exact fold_lift _ (fun (_ : Unit) v => (decBool false v).map fun _ => ()) (fun r : RegistrationRequest => ()) (fun r _ => r)
          (fun s v => by rw [Option.map_map]; rfl) (fun _ _ => rfl) _ ⟨[], []⟩ _ ((fold_flag _).mpr h4)
  obtain ⟨r', hr⟩ := hex
  obtain ⟨e1, e2, _⟩ := registration_folds hr
  rw [(saysString_iff _ _).mpr h1] at e1
  rw [(saysBytes_iff _ _).mpr h2] at e2
  rw [hr]
  obtain ⟨a, b⟩ := r'
  obtain ⟨a', b'⟩ := r
  cases e1; cases e2; rfl

theorem lookup_back {cs : List (Bytes × JVal)} {r : KeyLookupRequest} (h1 : SaysString (vals "Username" cs) r.username) :
    decKeyLookup ⟨[]⟩ (.obj cs) = some r := by
  have hex : ∃ r', decKeyLookup ⟨[]⟩ (.obj cs) = some r' := by
    refine fold_exists _ (by decide +kernel) _ ?_ cs _ ?_
    · intro i j hi hj hij
      simp only [List.length_cons, List.length_nil] at hi hj
      omega
    · intro i hi
      have hi' : i = 0 := by simp only [List.length_cons, List.length_nil] at hi; omega
      subst hi'
      exact fold_lift _ decStr (fun r : KeyLookupRequest => r.username) (fun r x => { r with username := x }) (fun _ _ => rfl) (fun _ _ => rfl) _
          ⟨[]⟩ _ ((saysString_iff _ _).mpr h1)
  obtain ⟨r', hr⟩ := hex
  have e1 := (saysString_iff _ _).mpr (lookup_reads hr)
  rw [(saysString_iff _ _).mpr h1] at e1
  rw [hr]
  obtain ⟨a⟩ := r'
  obtain ⟨a'⟩ := r
  cases e1; rfl

theorem inEpoch_back {cs : List (Bytes × JVal)} {r : KeyLookupInEpochRequest} (h1 : SaysString (vals "Username" cs) r.username)
    (h2 : SaysEpoch (vals "Epoch" cs) r.epoch) : decKeyLookupInEpoch ⟨[], 0⟩ (.obj cs) = some r := by
  have hex : ∃ r', decKeyLookupInEpoch ⟨[], 0⟩ (.obj cs) = some r' := by
    refine fold_exists _ (by decide +kernel) _ ?_ cs _ ?_
    · intro i j hi hj hij s v w s1 s2 a b
      simp only [List.length_cons, List.length_nil] at hi hj
      split at a
      · rename_i h0
        subst h0
        rw [if_neg (Ne.symm hij)] at b
        simp only [if_true, if_neg (Ne.symm hij)]
        diamond a b
      · rename_i h0
        simp only [if_neg h0]
        split at b
        · rename_i h1; simp only [h1, if_true]; diamond a b
        · omega
    · intro i hi
      have hi' : i = 0 ∨ i = 1 := by
        simp only [List.length_cons, List.length_nil] at hi; omega
      rcases hi' with rfl | rfl
      · exact fold_lift _ decStr (fun r : KeyLookupInEpochRequest => r.username) (fun r x => { r with username := x }) (fun _ _ => rfl) (fun _ _ => rfl)
          _ ⟨[], 0⟩ _ ((saysString_iff _ _).mpr h1)
      · exact fold_lift _ decU64 (fun r : KeyLookupInEpochRequest => r.epoch) (fun r x => { r with epoch := x }) (fun _ _ => rfl) (fun _ _ => rfl)
          _ ⟨[], 0⟩ _ ((saysEpoch_iff _ _).mpr h2)
  obtain ⟨r', hr⟩ := hex
  obtain ⟨a1, a2⟩ := inEpoch_reads hr
  have e1 := (saysString_iff _ _).mpr a1
  have e2 := (saysEpoch_iff _ _).mpr a2
  rw [(saysString_iff _ _).mpr h1] at e1
  rw [(saysEpoch_iff _ _).mpr h2] at e2
  rw [hr]
  obtain ⟨a, b⟩ := r'
  obtain ⟨a', b'⟩ := r
  cases e1; cases e2; rfl

theorem monitoring_back {cs : List (Bytes × JVal)} {r : MonitoringRequest} (h1 : SaysString (vals "Username" cs) r.username)
    (h2 : SaysEpoch (vals "StartEpoch" cs) r.startEpoch) (h3 : SaysEpoch (vals "EndEpoch" cs) r.endEpoch) :
    decMonitoring ⟨[], 0, 0⟩ (.obj cs) = some r := by
  have hex : ∃ r', decMonitoring ⟨[], 0, 0⟩ (.obj cs) = some r' := by
    refine fold_exists _ (by decide +kernel) _ ?_ cs _ ?_
    · intro i j hi hj hij s v w s1 s2 a b
      simp only [List.length_cons, List.length_nil] at hi hj
      split at a
      · rename_i h0
        subst h0
        rw [if_neg (Ne.symm hij)] at b
        simp only [if_true, if_neg (Ne.symm hij)]
        split at b
        · rename_i h1; simp only [h1, if_true]; diamond a b
        · rename_i h1; simp only [h1, if_false]; diamond a b
      · rename_i h0
        simp only [if_neg h0]
        split at a
        · rename_i h1
          subst h1
          simp only [if_true, if_neg (Ne.symm hij)]
          split at b
          · rename_i h2; simp only [h2, if_true]; diamond a b
          · rename_i h2; simp only [h2, if_false]; rw [if_neg (Ne.symm hij)] at b; diamond a b
        · rename_i h1
          simp only [if_neg h1]
          split at b
          · rename_i h2; simp only [h2, if_true]; diamond a b
          · rename_i h2
            simp only [h2, if_false]
            split at b
            · rename_i h3; simp only [h3, if_true]; diamond a b
            · omega
    · intro i hi
      have hi' : i = 0 ∨ i = 1 ∨ i = 2 := by
        simp only [List.length_cons, List.length_nil] at hi; omega
      rcases hi' with rfl | rfl | rfl
      · exact fold_lift _ decStr (fun r : MonitoringRequest => r.username) (fun r x => { r with username := x }) (fun _ _ => rfl) (fun _ _ => rfl)
          _ ⟨[], 0, 0⟩ _ ((saysString_iff _ _).mpr h1)
      · exact fold_lift _ decU64 (fun r : MonitoringRequest => r.startEpoch) (fun r x => { r with startEpoch := x }) (fun _ _ => rfl) (fun _ _ => rfl)
          _ ⟨[], 0, 0⟩ _ ((saysEpoch_iff _ _).mpr h2)
      · exact fold_lift _ decU64 (fun r : MonitoringRequest => r.endEpoch) (fun r x => { r with endEpoch := x }) (fun _ _ => rfl) (fun _ _ => rfl)
          _ ⟨[], 0, 0⟩ _ ((saysEpoch_iff _ _).mpr h3)
  obtain ⟨r', hr⟩ := hex
  obtain ⟨a1, a2, a3⟩ := monitoring_reads hr
  have e1 := (saysString_iff _ _).mpr a1
  have e2 := (saysEpoch_iff _ _).mpr a2
  have e3 := (saysEpoch_iff _ _).mpr a3
  rw [(saysString_iff _ _).mpr h1] at e1
  rw [(saysEpoch_iff _ _).mpr h2] at e2
  rw [(saysEpoch_iff _ _).mpr h3] at e3
  rw [hr]
  obtain ⟨a, b, c⟩ := r'
  obtain ⟨a', b', c'⟩ := r
  cases e1; cases e2; cases e3; rfl

theorem fold_content_exists : ∀ (vs : List JVal) (s : ReqState), ∃ s', vs.foldlM (fun (r : ReqState) v => match v with
      | .null => some { r with linked := false }
      | v => some (if r.linked then { r with content := some v } else r)) s = some s'
  | [], s => ⟨s, rfl⟩
  | v :: vs, s => by
    rw [List.foldlM_cons]
    cases v <;> exact fold_content_exists vs _

theorem envelope_back (msg : Bytes) (ms : List (Bytes × JVal)) (t : Int) (c : JVal) (hp : parse msg = some (.obj ms)) (ht : SaysInt (vals "Type" ms) t)
    (hc : contentOf ms = some c) : goJson.envelope msg = some (t, some c) := by
  have hex : ∃ r', decReqState ⟨0, none, true⟩ (.obj ms) = some r' := by
    refine fold_exists _ (by decide +kernel) _ ?_ ms _ ?_
    · intro i j hi hj hij s v w s1 s2 a b
      simp only [List.length_cons, List.length_nil] at hi hj
      split at a
      · rename_i h0
        subst h0
        rw [if_neg (Ne.symm hij)] at b
        simp only [if_true, if_neg (Ne.symm hij)]
        obtain ⟨x, hx, rfl⟩ := Option.map_eq_some_iff.mp a
        split at b
        · cases b; exact ⟨_, Option.map_eq_some_iff.mpr ⟨x, hx, rfl⟩, rfl⟩
        · cases b
          by_cases hl : s.linked = true
          · simp only [hl, if_true]; exact ⟨_, Option.map_eq_some_iff.mpr ⟨x, hx, rfl⟩, rfl⟩
          · simp only [Bool.eq_false_iff.mpr hl, Bool.false_eq_true, if_false]; exact ⟨_, Option.map_eq_some_iff.mpr ⟨x, hx, rfl⟩, rfl⟩
      · rename_i h0
        simp only [if_neg h0]
        have hj0 : j = 0 := by omega
        subst hj0
        simp only [if_true] at b ⊢
        obtain ⟨x, hx, rfl⟩ := Option.map_eq_some_iff.mp b
        split at a
        · cases a; exact ⟨_, rfl, Option.map_eq_some_iff.mpr ⟨x, hx, rfl⟩⟩
        · cases a
          by_cases hl : s.linked = true
          · simp only [hl, if_true]; exact ⟨_, rfl, Option.map_eq_some_iff.mpr ⟨x, hx, rfl⟩⟩
          · simp only [Bool.eq_false_iff.mpr hl, Bool.false_eq_true, if_false]; exact ⟨_, rfl, Option.map_eq_some_iff.mpr ⟨x, hx, rfl⟩⟩
    · intro i hi
      have hi' : i = 0 ∨ i = 1 := by
        simp only [List.length_cons, List.length_nil] at hi; omega
      rcases hi' with rfl | rfl
      · exact fold_lift _ decInt64 (fun r : ReqState => r.type) (fun r x => { r with type := x }) (fun _ _ => rfl) (fun _ _ => rfl)
          _ ⟨0, none, true⟩ _ ((saysInt_iff _ _).mpr ht)
      · exact fold_content_exists _ _
  obtain ⟨r', hr⟩ := hex
  have he : goJson.envelope msg = some (r'.type, r'.content) := by
    show ((parse msg).bind _).map _ = _
    rw [hp, Option.bind_some, hr]; rfl
  -- the content first
  have hcon : r'.content = contentOf ms := by
    unfold decReqState at hr
    rw [decStruct_obj] at hr
    have := fold_content _ _ _ (fold_proj _ (by decide +kernel) _ 1 (by decide) "Request" rfl
        (fun r : ReqState => (r.content, r.linked)) decContent
        (by
          intro s v s' h
          rw [if_neg (by decide)] at h
          split at h
          · cases h; rfl
          · rename_i hv
            cases h
            cases v <;> first | exact absurd rfl hv | (simp only [decContent]; split <;> simp_all))
        (by
          intro j s v s' hl hj h
          split at h
          · obtain ⟨x, _, hs⟩ := Option.map_eq_some_iff.mp h
            rw [← hs]
          · simp only [List.length_cons, List.length_nil] at hl; omega) ms _ r' hr)
    dsimp only at this
    rw [Option.or_none] at this
    exact this
  rw [hcon, hc] at he
  obtain ⟨ms', hp', ht', _⟩ := envelope_reads msg _ c he
  rw [hp] at hp'; cases hp'
  have := (saysInt_iff _ _).mpr ht'
  rw [(saysInt_iff _ _).mpr ht] at this
  cases this
  exact he

theorem request_iff (msg : Bytes) (req : Request) : unmarshalRequest goJson msg = some req ↔ ∃ ms, parse msg = some (.obj ms) ∧ Says ms req := by
  refine ⟨request_reads msg req, ?_⟩
  rintro ⟨ms, hp, ht, c, hc, h⟩
  obtain ⟨t, p⟩ := req
  have he := envelope_back msg ms t c hp ht hc
  unfold unmarshalRequest
  rw [he]
  dsimp only at h
  show (if t = 0 then (goJson.registration (some c)).map _ else if t = 1 then (goJson.keyLookup (some c)).map _ else
    if t = 2 then (goJson.keyLookupInEpoch (some c)).map _ else if t = 3 then (goJson.monitoring (some c)).map _ else
    (goJson.any (some c)).map _ : Option Request) = _
  cases p with
  | registration r =>
    obtain ⟨rfl, cs, rfl, h1, h2, h3, h4⟩ := h
    rw [if_pos (by decide)]
    show (decRegistration ⟨[], []⟩ (.obj cs)).map _ = _
    rw [registration_back h1 h2 h3 h4]; rfl
  | keyLookup r =>
    obtain ⟨rfl, cs, rfl, h1⟩ := h
    rw [if_neg (by decide), if_pos (by decide)]
    show (decKeyLookup ⟨[]⟩ (.obj cs)).map _ = _
    rw [lookup_back h1]; rfl
  | keyLookupInEpoch r =>
    obtain ⟨rfl, cs, rfl, h1, h2⟩ := h
    rw [if_neg (by decide), if_neg (by decide), if_pos (by decide)]
    show (decKeyLookupInEpoch ⟨[], 0⟩ (.obj cs)).map _ = _
    rw [inEpoch_back h1 h2]; rfl
  | monitoring r =>
    obtain ⟨rfl, cs, rfl, h1, h2, h3⟩ := h
    rw [if_neg (by decide), if_neg (by decide), if_neg (by decide), if_pos (by decide)]
    show (decMonitoring ⟨[], 0, 0⟩ (.obj cs)).map _ = _
    rw [monitoring_back h1 h2 h3]; rfl
  | other =>
    have h0 : t ≠ 0 := fun e => h (by simp [e])
    have h1 : t ≠ 1 := fun e => h (by simp [e])
    have h2 : t ≠ 2 := fun e => h (by simp [e])
    have h3 : t ≠ 3 := fun e => h (by simp [e])
    rw [if_neg h0, if_neg h1, if_neg h2, if_neg h3]
    rfl
  | _ => exact h.elim

end Coniks.Json
