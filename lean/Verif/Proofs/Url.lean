import Verif.Spec.Listen
import Verif.Model.Json.Value
import Verif.Proofs.Cli
/-
Proofs about `url.Parse` on plain addresses, and about a client whose registration is refused.
-/
namespace Coniks
open Spec Json

theorem cutAt_none {c : UInt8} : ∀ {s : Bytes}, (∀ b ∈ s, b ≠ c) → cutAt c s = (s, [])
  | [], _ => rfl
  | b :: t, h => by
    unfold cutAt
    rw [if_neg (h b (.head _)), cutAt_none fun x hx => h x (.tail _ hx)]

theorem cutBeforeSlash_none : ∀ {s : Bytes}, (∀ b ∈ s, b ≠ 0x2F) → cutBeforeSlash s = (s, [])
  | [], _ => rfl
  | b :: t, h => by
    unfold cutBeforeSlash
    rw [if_neg (h b (.head _)), cutBeforeSlash_none fun x hx => h x (.tail _ hx)]

theorem cutLast_none {c : UInt8} : ∀ {s : Bytes}, (∀ b ∈ s, b ≠ c) → cutLast c s = none
  | [], _ => rfl
  | b :: t, h => by
    unfold cutLast
    rw [cutLast_none fun x hx => h x (.tail _ hx)]
    exact if_neg (h b (.head _))

theorem unescape_plain : ∀ {s : Bytes}, (∀ b ∈ s, b ≠ 0x25) → unescape .plain s = some s
  | [], _ => by unfold unescape; rfl
  | b :: t, h => by
    unfold unescape
    rw [if_neg (h b (.head _)), unescape_plain fun x hx => h x (.tail _ hx)]
    rfl

theorem unescape_host : ∀ {s : Bytes}, (∀ b ∈ s, b ≠ 0x25 ∧ hostChar b = true) → unescape .host s = some s
  | [], _ => by unfold unescape; rfl
  | b :: t, h => by
    unfold unescape
    rw [if_neg (h b (.head _)).1, unescape_host fun x hx => h x (.tail _ hx)]
    simp [(h b (.head _)).2]

theorem getScheme_letters {whole rest : Bytes} : ∀ (s acc : Bytes), (∀ c ∈ s, urlAlpha c = true) → (acc ≠ [] ∨ s ≠ []) →
    getScheme whole acc (s ++ 0x3A :: rest) = some (acc.reverse ++ s, rest)
  | [], acc, _, h => by
    have hacc : acc ≠ [] := by rcases h with h | h; exact h; exact absurd rfl h
    rw [List.nil_append, List.append_nil]
    unfold getScheme
    rw [if_neg (by decide), if_neg (by decide), if_pos rfl, if_neg hacc]
  | c :: s, acc, hs, _ => by
    rw [List.cons_append]
    unfold getScheme
    rw [if_pos (hs c (.head _)), getScheme_letters s (c :: acc) (fun x hx => hs x (.tail _ hx)) (.inl (by simp))]
    simp

/-- the characters of a plain host -/
theorem plainHost_chars : ∀ c : UInt8, ((0x61 ≤ c ∧ c ≤ 0x7A) ∨ (0x41 ≤ c ∧ c ≤ 0x5A) ∨ (0x30 ≤ c ∧ c ≤ 0x39) ∨ c = 0x2E ∨ c = 0x2D ∨ c = 0x5F ∨ c = 0x3A) →
    c ≠ 0x23 ∧ c ≠ 0x3F ∧ c ≠ 0x2F ∧ c ≠ 0x40 ∧ c ≠ 0x5B ∧ c ≠ 0x25 ∧ hostChar c = true := by
  intro c
  have key : ∀ i : Fin 256, ((0x61 ≤ UInt8.ofNat i.val ∧ UInt8.ofNat i.val ≤ 0x7A) ∨ (0x41 ≤ UInt8.ofNat i.val ∧ UInt8.ofNat i.val ≤ 0x5A) ∨
      (0x30 ≤ UInt8.ofNat i.val ∧ UInt8.ofNat i.val ≤ 0x39) ∨ UInt8.ofNat i.val = 0x2E ∨ UInt8.ofNat i.val = 0x2D ∨ UInt8.ofNat i.val = 0x5F ∨
      UInt8.ofNat i.val = 0x3A) → UInt8.ofNat i.val ≠ 0x23 ∧ UInt8.ofNat i.val ≠ 0x3F ∧ UInt8.ofNat i.val ≠ 0x2F ∧ UInt8.ofNat i.val ≠ 0x40 ∧
      UInt8.ofNat i.val ≠ 0x5B ∧ UInt8.ofNat i.val ≠ 0x25 ∧ hostChar (UInt8.ofNat i.val) = true := by decide +kernel
  have := key ⟨c.toNat, c.toNat_lt⟩
  rwa [show UInt8.ofNat (Fin.val ⟨c.toNat, c.toNat_lt⟩) = c from UInt8.ofNat_toNat] at this

theorem parse_hosted (scheme : Bytes) (hs : scheme ≠ [] ∧ (∀ c ∈ scheme, urlAlpha c = true ∧ c ≠ 0x23)) {low : Bytes} (hlow : scheme.map lowerAscii = low) (hlow0 : low ≠ []) (h : Bytes)
    (hh : ∀ c ∈ h, (0x61 ≤ c ∧ c ≤ 0x7A) ∨ (0x41 ≤ c ∧ c ≤ 0x5A) ∨ (0x30 ≤ c ∧ c ≤ 0x39) ∨ c = 0x2E ∨ c = 0x2D ∨ c = 0x5F ∨ c = 0x3A) :
    parseUrl (scheme ++ [0x3A, 0x2F, 0x2F] ++ h) = some ⟨low, h, []⟩ := by
  have hc := fun c hc => plainHost_chars c (hh c hc)
  have hfrag : cutAt 0x23 (scheme ++ [0x3A, 0x2F, 0x2F] ++ h) = (scheme ++ [0x3A, 0x2F, 0x2F] ++ h, []) := by
    refine cutAt_none fun b hb => ?_
    rcases List.mem_append.1 hb with hb | hb
    · rcases List.mem_append.1 hb with hb | hb
      · exact (hs.2 b hb).2
      · simp only [List.mem_cons, List.not_mem_nil, or_false] at hb
        rcases hb with rfl | rfl | rfl <;> decide
    · exact (hc b hb).1
  unfold parseUrl
  rw [hfrag]
  simp only
  rw [show unescape .plain [] = some [] by unfold unescape; rfl]
  unfold parseNoFragment
  rw [if_neg (by
    intro he
    have := congrArg List.length he
    simp at this
    omega)]
  rw [List.append_assoc, show [0x3A, 0x2F, 0x2F] ++ h = (0x3A : UInt8) :: (0x2F :: 0x2F :: h) from rfl,
    getScheme_letters scheme [] (fun c hc => (hs.2 c hc).1) (.inr hs.1)]
  simp only [Option.bind_some, List.reverse_nil, List.nil_append, hlow]
  have hq : cutAt 0x3F (0x2F :: 0x2F :: h) = (0x2F :: 0x2F :: h, []) := by
    refine cutAt_none fun b hb => ?_
    rcases List.mem_cons.1 hb with rfl | hb
    · decide
    · rcases List.mem_cons.1 hb with rfl | hb
      · decide
      · exact (hc b hb).2.1
  rw [hq]
  simp only [List.head?_cons, ne_eq, not_true_eq_false, decide_false, Bool.false_and, Bool.false_eq_true, if_false, List.drop_succ_cons, List.drop_zero]
  rw [if_pos (by simp [hlow0, List.isPrefixOf]), cutBeforeSlash_none (fun b hb => (hc b hb).2.2.1)]
  simp only
  have hauth : parseAuthority h = some h := by
    unfold parseAuthority
    rw [cutLast_none fun b hb => (hc b hb).2.2.2.1]
    simp only
    unfold parseHost
    rw [if_neg, unescape_host fun b hb => (hc b hb).2.2.2.2.2]
    intro hhead
    cases h with
    | nil => cases hhead
    | cons b t =>
      injection hhead with hhead
      exact (hc b (.head _)).2.2.2.2.1 hhead
  rw [hauth, show unescape .plain [] = some [] by unfold unescape; rfl]
  rfl

theorem parse_path (scheme : Bytes) (hs : scheme ≠ [] ∧ (∀ c ∈ scheme, urlAlpha c = true ∧ c ≠ 0x23)) {low : Bytes} (hlow : scheme.map lowerAscii = low)
    (hlow0 : low ≠ []) (p : Bytes) (h1 : p.head? = some 0x2F) (h2 : ∀ c ∈ p, c ≠ 0x3F ∧ c ≠ 0x23) :
    parseUrl (scheme ++ [0x3A, 0x2F, 0x2F] ++ p) = (unescape .plain p).map fun q => ⟨low, [], q⟩ := by
  obtain ⟨t, rfl⟩ : ∃ t, p = 0x2F :: t := by
    cases p with
    | nil => cases h1
    | cons b t => injection h1 with h1; exact ⟨t, by rw [h1]⟩
  have hfrag : cutAt 0x23 (scheme ++ [0x3A, 0x2F, 0x2F] ++ 0x2F :: t) = (scheme ++ [0x3A, 0x2F, 0x2F] ++ 0x2F :: t, []) := by
    refine cutAt_none fun b hb => ?_
    rcases List.mem_append.1 hb with hb | hb
    · rcases List.mem_append.1 hb with hb | hb
      · exact (hs.2 b hb).2
      · simp only [List.mem_cons, List.not_mem_nil, or_false] at hb
        rcases hb with rfl | rfl | rfl <;> decide
    · exact (h2 b hb).2
  unfold parseUrl
  rw [hfrag]
  simp only
  rw [show unescape .plain [] = some [] by unfold unescape; rfl]
  unfold parseNoFragment
  rw [if_neg (by
    intro he
    have := congrArg List.length he
    simp at this
    omega)]
  rw [List.append_assoc, show [0x3A, 0x2F, 0x2F] ++ (0x2F :: t) = (0x3A : UInt8) :: (0x2F :: 0x2F :: 0x2F :: t) from rfl,
    getScheme_letters scheme [] (fun c hc => (hs.2 c hc).1) (.inr hs.1)]
  simp only [Option.bind_some, List.reverse_nil, List.nil_append, hlow]
  have hq : cutAt 0x3F (0x2F :: 0x2F :: 0x2F :: t) = (0x2F :: 0x2F :: 0x2F :: t, []) := by
    refine cutAt_none fun b hb => ?_
    rcases List.mem_cons.1 hb with rfl | hb
    · decide
    · rcases List.mem_cons.1 hb with rfl | hb
      · decide
      · exact (h2 b hb).1
  rw [hq]
  simp only [List.head?_cons, ne_eq, not_true_eq_false, decide_false, Bool.false_and, Bool.false_eq_true, if_false, List.drop_succ_cons, List.drop_zero]
  rw [if_pos (by simp [hlow0, List.isPrefixOf])]
  have hcut : cutBeforeSlash (0x2F :: t) = ([], 0x2F :: t) := by unfold cutBeforeSlash; rw [if_pos rfl]
  rw [hcut]
  simp only
  rw [show parseAuthority [] = some [] by decide +kernel]
  cases unescape .plain (0x2F :: t) <;> rfl

/-- hexadecimal digits -/
theorem unhex_iff (c : UInt8) (v : UInt8) : unhex c = some v ↔ ∃ x, HexDigit c x ∧ v = UInt8.ofNat x := by
  have key : ∀ i : Fin 256, (∃ v, unhex (UInt8.ofNat i.val) = some v) ↔
      ((48 ≤ i.val ∧ i.val ≤ 57) ∨ (97 ≤ i.val ∧ i.val ≤ 102) ∨ (65 ≤ i.val ∧ i.val ≤ 70)) := by
    intro i
    rw [← Option.isSome_iff_exists]
    revert i
    decide +kernel
  have val : ∀ i : Fin 256, (∀ v ∈ unhex (UInt8.ofNat i.val), (48 ≤ i.val ∧ i.val ≤ 57 → v = UInt8.ofNat (i.val - 48)) ∧
      (97 ≤ i.val ∧ i.val ≤ 102 → v = UInt8.ofNat (i.val - 87)) ∧ (65 ≤ i.val ∧ i.val ≤ 70 → v = UInt8.ofNat (i.val - 55))) := by decide +kernel
  have k := key ⟨c.toNat, c.toNat_lt⟩
  have w := val ⟨c.toNat, c.toNat_lt⟩
  rw [show UInt8.ofNat (Fin.val ⟨c.toNat, c.toNat_lt⟩) = c from UInt8.ofNat_toNat] at k w
  simp only at k w
  unfold HexDigit
  constructor
  · intro h
    obtain ⟨w1, w2, w3⟩ := w v h
    rcases k.1 ⟨v, h⟩ with hc | hc | hc
    · exact ⟨_, .inl ⟨hc.1, hc.2, rfl⟩, w1 hc⟩
    · exact ⟨_, .inr (.inl ⟨hc.1, hc.2, rfl⟩), w2 hc⟩
    · exact ⟨_, .inr (.inr ⟨hc.1, hc.2, rfl⟩), w3 hc⟩
  · rintro ⟨x, hx, rfl⟩
    have : ∃ v, unhex c = some v := k.2 (by omega)
    obtain ⟨v, hv⟩ := this
    obtain ⟨w1, w2, w3⟩ := w v hv
    rw [hv]
    rcases hx with ⟨a, b, rfl⟩ | ⟨a, b, rfl⟩ | ⟨a, b, rfl⟩
    · rw [w1 ⟨a, b⟩]
    · rw [w2 ⟨a, b⟩]
    · rw [w3 ⟨a, b⟩]

theorem hex_byte (x y : Nat) (hx : x < 16) (hy : y < 16) : UInt8.ofNat x * 16 + UInt8.ofNat y = UInt8.ofNat (16 * x + y) := by
  have : ∀ x y : Fin 16, UInt8.ofNat x.val * 16 + UInt8.ofNat y.val = UInt8.ofNat (16 * x.val + y.val) := by decide +kernel
  exact this ⟨x, hx⟩ ⟨y, hy⟩

theorem hexDigit_lt {c : UInt8} {x : Nat} (h : HexDigit c x) : x < 16 := by
  unfold HexDigit at h; omega

/-- unescaping is reading the spelling -/
theorem unescape_iff : ∀ (n : Nat) (s p : Bytes), s.length ≤ n → (unescape .plain s = some p ↔ Spells s p)
  | _, [], p, _ => by
    rw [show unescape .plain [] = some [] by unfold unescape; rfl]
    constructor
    · intro h; injection h with h; subst h; exact .nil
    · intro h; cases h; rfl
  | 0, c :: t, p, h => by simp at h
  | n + 1, c :: t, p, h => by
    have ht : t.length ≤ n := by simpa using h
    by_cases hc : c = 0x25
    · subst hc
      unfold unescape
      rw [if_pos rfl]
      match t, ht with
      | [], _ => exact iff_of_false (fun h => nomatch h) (fun h => by cases h with | lit _ h _ => exact h rfl)
      | [a], _ => exact iff_of_false (fun h => nomatch h) (fun h => by cases h with | lit _ h _ => exact h rfl)
      | a :: b :: t', ht =>
        have ih := unescape_iff n t'
        simp only
        constructor
        · intro hu
          cases ha : unhex a with
          | none => rw [ha] at hu; cases hu
          | some hi =>
            cases hb : unhex b with
            | none => rw [ha, hb] at hu; cases hu
            | some lo =>
              rw [ha, hb] at hu
              simp only [escapeOk, if_true] at hu
              obtain ⟨q, hq, rfl⟩ := Option.map_eq_some_iff.1 hu
              obtain ⟨x, hx, rfl⟩ := (unhex_iff _ _).1 ha
              obtain ⟨y, hy, rfl⟩ := (unhex_iff _ _).1 hb
              rw [hex_byte x y (hexDigit_lt hx) (hexDigit_lt hy)]
              refine .esc a b x y hx hy ((ih q ?_).1 hq)
              simp at ht
              omega
        · intro hs
          cases hs with
          | lit _ h _ => exact absurd rfl h
          | esc _ _ x y hx hy hs =>
            rename_i q
            rw [(unhex_iff a _).2 ⟨x, hx, rfl⟩, (unhex_iff b _).2 ⟨y, hy, rfl⟩]
            simp only [escapeOk, if_true]
            rw [(ih q (by simp at ht; omega)).2 hs, hex_byte x y (hexDigit_lt hx) (hexDigit_lt hy)]
            rfl
    · unfold unescape
      rw [if_neg hc, if_neg (by simp)]
      have ih := unescape_iff n t
      constructor
      · intro hu
        obtain ⟨q, hq, rfl⟩ := Option.map_eq_some_iff.1 hu
        exact .lit c hc ((ih q ht).1 hq)
      · intro hs
        cases hs with
        | lit _ h hs => rw [(ih _ ht).2 hs]; rfl
        | esc => exact absurd rfl hc

theorem plain_spells : ∀ {s : Bytes}, (∀ b ∈ s, b ≠ 0x25) → Spells s s
  | [], _ => .nil
  | b :: _, h => .lit b (h b (.head _)) (plain_spells fun x hx => h x (.tail _ hx))

/-- a scheme in any case -/
theorem anyCase_scheme {s t : Bytes} (h : AnyCase s t) (ht : t ≠ []) (hl : ∀ c ∈ t, 97 ≤ c.toNat ∧ c.toNat ≤ 122) :
    (s ≠ [] ∧ ∀ c ∈ s, urlAlpha c = true ∧ c ≠ 0x23) ∧ s.map lowerAscii = t := by
  obtain ⟨h1, h2⟩ := h
  have low : ∀ i : Fin 256, 97 ≤ i.val ∧ i.val ≤ 122 → urlAlpha (UInt8.ofNat i.val) = true ∧ UInt8.ofNat i.val ≠ 0x23 ∧ lowerAscii (UInt8.ofNat i.val) = UInt8.ofNat i.val := by
    decide +kernel
  have up : ∀ i : Fin 256, 65 ≤ i.val ∧ i.val ≤ 90 → urlAlpha (UInt8.ofNat i.val) = true ∧ UInt8.ofNat i.val ≠ 0x23 ∧ (lowerAscii (UInt8.ofNat i.val)).toNat = i.val + 32 := by
    decide +kernel
  have one : ∀ x ∈ s.zip t, (urlAlpha x.1 = true ∧ x.1 ≠ 0x23) ∧ lowerAscii x.1 = x.2 := by
    rintro ⟨c, d⟩ hx
    have hd := hl d (List.of_mem_zip hx).2
    rcases h2 _ hx with he | ⟨ha, hb, he⟩
    · simp only at he
      subst he
      have := low ⟨c.toNat, c.toNat_lt⟩ hd
      rw [show UInt8.ofNat (Fin.val ⟨c.toNat, c.toNat_lt⟩) = c from UInt8.ofNat_toNat] at this
      exact ⟨⟨this.1, this.2.1⟩, this.2.2⟩
    · simp only at ha hb he
      have := up ⟨c.toNat, c.toNat_lt⟩ ⟨ha, hb⟩
      rw [show UInt8.ofNat (Fin.val ⟨c.toNat, c.toNat_lt⟩) = c from UInt8.ofNat_toNat] at this
      refine ⟨⟨this.1, this.2.1⟩, UInt8.toNat_inj.1 ?_⟩
      show _ = d.toNat
      rw [he]
      exact this.2.2
  refine ⟨⟨?_, ?_⟩, ?_⟩
  · rintro rfl
    exact ht (List.eq_nil_of_length_eq_zero h1.symm)
  · intro c hc
    obtain ⟨i, hi, rfl⟩ := List.mem_iff_getElem.1 hc
    have : (s[i], t[i]'(by omega)) ∈ s.zip t := by
      rw [List.mem_iff_getElem]
      exact ⟨i, by rw [List.length_zip]; omega, by simp⟩
    exact (one _ this).1
  · refine List.ext_getElem (by simpa using h1) fun i hi hi' => ?_
    rw [List.getElem_map]
    have hi2 : i < s.length := by simpa using hi
    have : (s[i], t[i]) ∈ s.zip t := by
      rw [List.mem_iff_getElem]
      exact ⟨i, by rw [List.length_zip]; omega, by simp⟩
    exact (one _ this).2

/-- the client's side of a registration that the server does not take at this address -/
theorem cliRegister_refused {C : Crypto} {N : Net} {conf : CliConf} {perms : Nat → Int → Bool} (hu : N.usable conf.reg = some true)
    (hp : perms (N.listener conf.reg) 0 = false) {rnd : Option Bytes} {d : Directory} {cc : Client} {n k : Bytes} :
    cc.cliRegister C N conf perms rnd d n k = some (d, cc, ascii "Error: [coniks] Malformed message") := by
  have hx : exchange C perms rnd d (N.listener conf.reg) (createRegistrationMsg n (some k)) =
      some (d, clientRead (marshalResponse (newErrorResponse ErrMalformedMessage))) := by
    by_cases hl : (createRegistrationMsg n (some k)).length ≤ 8192
    · unfold exchange acceptClient screen
      rw [read_short _ hl]
      simp only
      rw [request_registration n (some k)]
      simp only [checkRequestType]
      rw [hp]
      rfl
    · have hlt : 8192 < (createRegistrationMsg n (some k)).length := by omega
      have hc : unmarshalRequest goJson ((createRegistrationMsg n (some k)).take 8192) = none :=
        request_cut RegistrationType _ (encRegistration_ok n (some k)).1 8192 hlt
      exact exchange_long C perms rnd d _ _ hlt hc
  unfold Client.cliRegister
  rw [hu, Option.bind_some, if_pos rfl, hx, Option.bind_some]
  have hl : (marshalResponse (newErrorResponse ErrMalformedMessage)).length ≤ 8192 := by decide +kernel
  rw [afterRegister_sendable (sendable_error _ _ (Or.inl rfl)), if_pos hl, ← malformed_text]
  rfl

end Coniks
