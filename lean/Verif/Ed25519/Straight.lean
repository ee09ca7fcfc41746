import Verif.Model.Ed25519.Word
import Mathlib.Algebra.BigOperators.Group.List.Basic
import Mathlib.Tactic.Ring
import Mathlib.Tactic.Linarith
/-
Two checkers for straight-line integer code, and their soundness:

* `Iv.prog` computes intervals for all variables and fails if an operation could wrap around. If it succeeds then the wrapping semantics
  and the exact semantics (`runZ`) agree.
* `wp` pulls a polynomial in the variables after the program back to one in the variables before it, up to a multiple of a modulus.
-/
namespace Coniks.Ed

/-- The exact value of an expression. -/
def Ex.evZ (ρ : Nat → Int) : Ex → Int
  | .v i => ρ i
  | .c z => z
  | .add a b => a.evZ ρ + b.evZ ρ
  | .sub a b => a.evZ ρ - b.evZ ρ
  | .mul a b => a.evZ ρ * b.evZ ρ
  | .shl a k => a.evZ ρ * 2 ^ k

def St.runZ (ρ : Nat → Int) : St → Nat → Int
  | .set _ d e => upd ρ d (e.evZ ρ)
  | .shr _ d e k => upd ρ d (e.evZ ρ / 2 ^ k)

def runZ : List St → (Nat → Int) → Nat → Int
  | [], ρ => ρ
  | s :: ss, ρ => runZ ss (s.runZ ρ)

theorem run_append (a b : List St) (ρ : Nat → Int) : run (a ++ b) ρ = run b (run a ρ) := by
  induction a generalizing ρ with
  | nil => rfl
  | cons s ss ih => exact ih _

theorem runZ_append (a b : List St) (ρ : Nat → Int) : runZ (a ++ b) ρ = runZ b (runZ a ρ) := by
  induction a generalizing ρ with
  | nil => rfl
  | cons s ss ih => exact ih _

theorem upd_same (ρ : Nat → Int) (d : Nat) (z : Int) : upd ρ d z d = z := by simp [upd]
theorem upd_other (ρ : Nat → Int) {d i : Nat} (z : Int) (h : i ≠ d) : upd ρ d z i = ρ i := by simp [upd, h]

/-! ### Intervals -/

/-- the bound of a signed type: `-half w ≤ z < half w` -/
def half (w : Nat) : Int := ((2 ^ (w - 1) : Nat) : Int)

theorem wrap_id {w : Nat} {z : Int} (hw : 0 < w) (h1 : -half w ≤ z) (h2 : z < half w) : wrap w z = z := by
  obtain ⟨n, rfl⟩ : ∃ n, w = n + 1 := ⟨w - 1, by omega⟩
  unfold half at h1 h2
  simp only [Nat.add_sub_cancel] at h1 h2
  unfold wrap
  apply Int.bmod_eq_of_le_mul_two
  · rw [pow_succ]; push_cast at *; linarith
  · rw [pow_succ]; push_cast at *; linarith

/-- closed intervals -/
structure Iv where
  lo : Int
  hi : Int
  deriving Repr, DecidableEq

def Iv.mem (z : Int) (i : Iv) : Prop := i.lo ≤ z ∧ z ≤ i.hi

/-- the interval, if it fits the type -/
def Iv.fit (w : Nat) (i : Iv) : Option Iv := if 0 < w ∧ -half w ≤ i.lo ∧ i.hi < half w then some i else none

theorem Iv.fit_some {w : Nat} {i j : Iv} (h : i.fit w = some j) {z : Int} (hz : i.mem z) : wrap w z = z ∧ j.mem z := by
  unfold Iv.fit at h
  split at h
  · cases h
    exact ⟨wrap_id (by tauto) (by unfold mem at hz; omega) (by unfold mem at hz; omega), hz⟩
  · cases h

def Iv.add (a b : Iv) : Iv := ⟨a.lo + b.lo, a.hi + b.hi⟩
def Iv.sub (a b : Iv) : Iv := ⟨a.lo - b.hi, a.hi - b.lo⟩
def Iv.mul (a b : Iv) : Iv :=
  ⟨min (min (a.lo * b.lo) (a.lo * b.hi)) (min (a.hi * b.lo) (a.hi * b.hi)),
   max (max (a.lo * b.lo) (a.lo * b.hi)) (max (a.hi * b.lo) (a.hi * b.hi))⟩

theorem Iv.mem_add {a b : Iv} {x y : Int} (hx : a.mem x) (hy : b.mem y) : (a.add b).mem (x + y) := by
  unfold mem at *; simp only [Iv.add]; omega

theorem Iv.mem_sub {a b : Iv} {x y : Int} (hx : a.mem x) (hy : b.mem y) : (a.sub b).mem (x - y) := by
  unfold mem at *; simp only [Iv.sub]; omega

private theorem lin_between {l h x k : Int} (h1 : l ≤ x) (h2 : x ≤ h) :
    min (l * k) (h * k) ≤ x * k ∧ x * k ≤ max (l * k) (h * k) := by
  rcases le_total 0 k with hk | hk
  · exact ⟨le_trans (min_le_left _ _) (mul_le_mul_of_nonneg_right h1 hk), le_trans (mul_le_mul_of_nonneg_right h2 hk) (le_max_right _ _)⟩
  · exact ⟨le_trans (min_le_right _ _) (mul_le_mul_of_nonpos_right h2 hk), le_trans (mul_le_mul_of_nonpos_right h1 hk) (le_max_left _ _)⟩

theorem Iv.mem_mul {a b : Iv} {x y : Int} (hx : a.mem x) (hy : b.mem y) : (a.mul b).mem (x * y) := by
  obtain ⟨hx1, hx2⟩ := hx
  obtain ⟨hy1, hy2⟩ := hy
  have h1 := lin_between (k := y) hx1 hx2
  have h2 := lin_between (k := a.lo) hy1 hy2
  have h3 := lin_between (k := a.hi) hy1 hy2
  rw [mul_comm b.lo, mul_comm b.hi, mul_comm y] at h2 h3
  refine ⟨?_, ?_⟩
  · exact le_trans (min_le_min h2.1 h3.1) h1.1
  · exact le_trans h1.2 (max_le_max h2.2 h3.2)

/-- The known intervals of the variables. -/
abbrev IvEnv := List (Nat × Iv)

def IvEnv.look : IvEnv → Nat → Option Iv
  | [], _ => none
  | (i, a) :: e, j => if i = j then some a else IvEnv.look e j

/-- replace, keeping the order -/
def IvEnv.put : IvEnv → Nat → Iv → IvEnv
  | [], j, b => [(j, b)]
  | (i, a) :: e, j, b => if i = j then (j, b) :: e else (i, a) :: IvEnv.put e j b

theorem IvEnv.look_put (e : IvEnv) (j : Nat) (b : Iv) (i : Nat) : (e.put j b).look i = if j = i then some b else e.look i := by
  induction e with
  | nil => simp [put, look]
  | cons x e ih =>
    obtain ⟨k, a⟩ := x
    simp only [put]
    split
    · rename_i h; subst h
      simp only [look]
      split <;> rfl
    · rename_i h
      simp only [look, ih]
      by_cases h1 : k = i
      · subst h1; rw [if_pos rfl, if_neg (Ne.symm h), if_pos rfl]
      · rw [if_neg h1, if_neg h1]

def IvEnv.Ok (e : IvEnv) (ρ : Nat → Int) : Prop := ∀ i a, e.look i = some a → a.mem (ρ i)

/-- the interval of an expression, unless an operation may wrap around -/
def Ex.iv (w : Nat) (e : IvEnv) : Ex → Option Iv
  | .v i => e.look i
  | .c z => some ⟨z, z⟩
  | .add a b => (a.iv w e).bind fun x => (b.iv w e).bind fun y => (x.add y).fit w
  | .sub a b => (a.iv w e).bind fun x => (b.iv w e).bind fun y => (x.sub y).fit w
  | .mul a b => (a.iv w e).bind fun x => (b.iv w e).bind fun y => (x.mul y).fit w
  | .shl a k => (a.iv w e).bind fun x => (x.mul ⟨((2 ^ k : Nat) : Int), ((2 ^ k : Nat) : Int)⟩).fit w

theorem Ex.iv_sound {w : Nat} {e : IvEnv} {ρ : Nat → Int} (he : e.Ok ρ) :
    ∀ {x : Ex} {a : Iv}, x.iv w e = some a → x.ev w ρ = x.evZ ρ ∧ a.mem (x.evZ ρ) := by
  intro x
  induction x with
  | v i => intro a h; exact ⟨rfl, he i a h⟩
  | c z => intro a h; simp only [iv, Option.some.injEq] at h; subst h; exact ⟨rfl, Int.le_refl _, Int.le_refl _⟩
  | add x y ihx ihy =>
    intro a h
    simp only [iv, Option.bind_eq_some_iff] at h
    obtain ⟨a1, h1, a2, h2, h⟩ := h
    obtain ⟨e1, m1⟩ := ihx h1
    obtain ⟨e2, m2⟩ := ihy h2
    have := Iv.fit_some h (Iv.mem_add m1 m2)
    simp only [ev, evZ, e1, e2]; exact this
  | sub x y ihx ihy =>
    intro a h
    simp only [iv, Option.bind_eq_some_iff] at h
    obtain ⟨a1, h1, a2, h2, h⟩ := h
    obtain ⟨e1, m1⟩ := ihx h1
    obtain ⟨e2, m2⟩ := ihy h2
    have := Iv.fit_some h (Iv.mem_sub m1 m2)
    simp only [ev, evZ, e1, e2]; exact this
  | mul x y ihx ihy =>
    intro a h
    simp only [iv, Option.bind_eq_some_iff] at h
    obtain ⟨a1, h1, a2, h2, h⟩ := h
    obtain ⟨e1, m1⟩ := ihx h1
    obtain ⟨e2, m2⟩ := ihy h2
    have := Iv.fit_some h (Iv.mem_mul m1 m2)
    simp only [ev, evZ, e1, e2]; exact this
  | shl x k ihx =>
    intro a h
    simp only [iv, Option.bind_eq_some_iff] at h
    obtain ⟨a1, h1, h⟩ := h
    obtain ⟨e1, m1⟩ := ihx h1
    have := Iv.fit_some h (Iv.mem_mul (b := ⟨((2 ^ k : Nat) : Int), ((2 ^ k : Nat) : Int)⟩) (y := ((2 ^ k : Nat) : Int)) m1
      ⟨Int.le_refl _, Int.le_refl _⟩)
    have hk : ((2 ^ k : Nat) : Int) = (2 : Int) ^ k := by push_cast; rfl
    rw [hk] at this
    simp only [ev, evZ, e1]; exact this

/-- What the last shift computed: `c = (x + r) >> k`, with `x` unchanged since. -/
structure Fact where
  c : Nat
  x : Nat
  r : Int
  k : Nat
  deriving DecidableEq

def Fact.Ok (f : Fact) (ρ : Nat → Int) : Prop := ρ f.c = (ρ f.x + f.r) / 2 ^ f.k

structure IvSt where
  env : IvEnv
  fact : Option Fact
  deriving DecidableEq

def IvSt.Ok (s : IvSt) (ρ : Nat → Int) : Prop := s.env.Ok ρ ∧ ∀ f, s.fact = some f → f.Ok ρ

/-- the shape `x + r` -/
def Ex.plus : Ex → Option (Nat × Int)
  | .v i => some (i, 0)
  | .add (.v i) (.c z) => some (i, z)
  | _ => none

theorem Ex.plus_sound {x : Ex} {i : Nat} {r : Int} (h : x.plus = some (i, r)) (ρ : Nat → Int) : x.evZ ρ = ρ i + r := by
  unfold plus at h
  split at h <;> simp at h
  · obtain ⟨rfl, rfl⟩ := h; simp [evZ]
  · obtain ⟨rfl, rfl⟩ := h; simp [evZ]

/-- Is this the subtraction `x - (c << k)` of the fact? -/
def Fact.matches (f : Fact) (d : Nat) (e : Ex) : Bool := d == f.x && e == .sub (.v f.x) (.shl (.v f.c) f.k)

def Fact.range (f : Fact) : Iv := ⟨-f.r, ((2 ^ f.k : Nat) : Int) - 1 - f.r⟩

theorem Fact.range_sound {f : Fact} {ρ : Nat → Int} (h : f.Ok ρ) : f.range.mem (ρ f.x - ρ f.c * 2 ^ f.k) := by
  unfold Ok at h
  rw [h]
  have hp : (0 : Int) < 2 ^ f.k := by positivity
  have h1 := Int.emod_add_mul_ediv (ρ f.x + f.r) (2 ^ f.k)
  have h2 := Int.emod_nonneg (ρ f.x + f.r) hp.ne'
  have h3 := Int.emod_lt_of_pos (ρ f.x + f.r) hp
  have hk : ((2 ^ f.k : Nat) : Int) = (2 : Int) ^ f.k := by push_cast; rfl
  unfold range Iv.mem
  simp only [hk]
  generalize (ρ f.x + f.r) % 2 ^ f.k = a at *
  have h4 : (ρ f.x + f.r) / 2 ^ f.k * 2 ^ f.k = ρ f.x + f.r - a := by linarith
  rw [h4]
  constructor <;> linarith

def IvSt.step (s : IvSt) : St → Option IvSt
  | .set w d e =>
    (e.iv w s.env).bind fun a => (a.fit w).bind fun a =>
      match s.fact with
      | none => some ⟨s.env.put d a, none⟩
      | some f =>
        if f.matches d e then some ⟨s.env.put d f.range, none⟩
        else some ⟨s.env.put d a, if d = f.c ∨ d = f.x then none else some f⟩
  | .shr w d e k =>
    (e.iv w s.env).bind fun a =>
      some ⟨s.env.put d ⟨a.lo / ((2 ^ k : Nat) : Int), a.hi / ((2 ^ k : Nat) : Int)⟩,
        match e.plus with
        | some (x, r) => if x = d then none else some ⟨d, x, r, k⟩
        | none => none⟩

theorem IvEnv.ok_put {e : IvEnv} {ρ : Nat → Int} (he : e.Ok ρ) {d : Nat} {a : Iv} {z : Int} (h : a.mem z) :
    (e.put d a).Ok (upd ρ d z) := by
  intro i b hb
  rw [IvEnv.look_put] at hb
  by_cases hi : d = i
  · subst hi; rw [if_pos rfl] at hb; cases hb; rw [upd_same]; exact h
  · rw [if_neg hi] at hb; rw [upd_other _ _ (Ne.symm hi)]; exact he i b hb

theorem IvSt.step_sound {s s' : IvSt} {st : St} {ρ : Nat → Int} (hs : s.Ok ρ) (h : s.step st = some s') :
    st.run ρ = st.runZ ρ ∧ s'.Ok (st.runZ ρ) := by
  obtain ⟨he, hf⟩ := hs
  cases st with
  | set w d e =>
    simp only [step, Option.bind_eq_some_iff] at h
    obtain ⟨a, ha, a', ha', h⟩ := h
    obtain ⟨h1, h2⟩ := Ex.iv_sound he ha
    obtain ⟨h3, h4⟩ := Iv.fit_some ha' h2
    refine ⟨by simp only [St.run, St.runZ, h1, h3], ?_⟩
    simp only [St.runZ]
    cases hfa : s.fact with
    | none =>
      rw [hfa] at h; simp only [Option.some.injEq] at h; subst h
      exact ⟨IvEnv.ok_put he h4, fun f hf' => by simp at hf'⟩
    | some f =>
      rw [hfa] at h
      have hfo := hf f hfa
      simp only at h
      split at h
      · rename_i hm
        simp only [Option.some.injEq] at h; subst h
        unfold Fact.matches at hm
        simp only [Bool.and_eq_true, beq_iff_eq] at hm
        obtain ⟨rfl, rfl⟩ := hm
        exact ⟨IvEnv.ok_put he (Fact.range_sound hfo), fun f hf' => by simp at hf'⟩
      · simp only [Option.some.injEq] at h; subst h
        refine ⟨IvEnv.ok_put he h4, fun g hg => ?_⟩
        simp only at hg
        split at hg
        · cases hg
        · rename_i hd
          cases hg
          unfold Fact.Ok at *
          rw [upd_other _ _ (fun h => hd (Or.inl h.symm)), upd_other _ _ (fun h => hd (Or.inr h.symm))]
          exact hfo
  | shr w d e k =>
    simp only [step, Option.bind_eq_some_iff, Option.some.injEq] at h
    obtain ⟨a, ha, h⟩ := h
    obtain ⟨h1, h2⟩ := Ex.iv_sound he ha
    refine ⟨by simp only [St.run, St.runZ, h1], ?_⟩
    simp only [St.runZ]
    subst h
    have hk : ((2 ^ k : Nat) : Int) = (2 : Int) ^ k := by push_cast; rfl
    refine ⟨IvEnv.ok_put he ?_, ?_⟩
    · rw [hk]
      have hp : (0 : Int) < 2 ^ k := by positivity
      exact ⟨Int.ediv_le_ediv hp h2.1, Int.ediv_le_ediv hp h2.2⟩
    · intro f hf'
      simp only at hf'
      split at hf'
      · rename_i x r hx
        split at hf'
        · cases hf'
        · rename_i hxd
          cases hf'
          unfold Fact.Ok
          rw [upd_same, upd_other _ _ hxd, Ex.plus_sound hx]
      · cases hf'

def IvSt.prog (s : IvSt) : List St → Option IvSt
  | [] => some s
  | st :: p => (s.step st).bind fun s' => s'.prog p

theorem IvSt.prog_sound {p : List St} : ∀ {s s' : IvSt} {ρ : Nat → Int}, s.Ok ρ → s.prog p = some s' →
    run p ρ = runZ p ρ ∧ s'.Ok (runZ p ρ) := by
  induction p with
  | nil => intro s s' ρ hs h; simp only [prog, Option.some.injEq] at h; subst h; exact ⟨rfl, hs⟩
  | cons st p ih =>
    intro s s' ρ hs h
    simp only [prog, Option.bind_eq_some_iff] at h
    obtain ⟨s1, h1, h2⟩ := h
    obtain ⟨e1, o1⟩ := step_sound hs h1
    obtain ⟨e2, o2⟩ := ih o1 h2
    simp only [run, runZ, e1]
    exact ⟨e2, o2⟩

/-- All intervals of `post` contain the ones computed. -/
def IvEnv.within (e post : IvEnv) : Bool :=
  post.all fun (i, b) => match e.look i with
    | some a => decide (b.lo ≤ a.lo ∧ a.hi ≤ b.hi)
    | none => false

/-- The check used below: from `pre` the program does not wrap around and ends within `post`. -/
def ivCheck (pre : IvEnv) (p : List St) (post : IvEnv) : Bool :=
  match IvSt.prog ⟨pre, none⟩ p with
  | some s => s.env.within post
  | none => false

theorem ivCheck_sound {pre post : IvEnv} {p : List St} (h : ivCheck pre p post = true) {ρ : Nat → Int} (hρ : pre.Ok ρ) :
    run p ρ = runZ p ρ ∧ ∀ x ∈ post, x.2.mem (runZ p ρ x.1) := by
  unfold ivCheck at h
  split at h
  · rename_i s hs
    obtain ⟨h1, h2, -⟩ := IvSt.prog_sound ⟨hρ, fun f hf => by simp at hf⟩ hs
    refine ⟨h1, fun x hx => ?_⟩
    have := List.all_eq_true.mp h x hx
    obtain ⟨i, b⟩ := x
    simp only at this
    split at this
    · rename_i a ha
      simp only [decide_eq_true_eq] at this
      have := h2 i a ha
      unfold Iv.mem at *
      simp only
      omega
    · cases this
  · cases h

/-! ### Polynomials -/

/-- a monomial is a product of variables; a polynomial a sum of multiples of monomials -/
abbrev Mono := List Nat
abbrev Poly := List (Int × Mono)

def Mono.ev (ρ : Nat → Int) (m : Mono) : Int := (m.map ρ).prod
def Poly.ev (ρ : Nat → Int) (p : Poly) : Int := (p.map fun t => t.1 * Mono.ev ρ t.2).sum

def insertNat (n : Nat) : List Nat → List Nat
  | [] => [n]
  | m :: l => if n ≤ m then n :: m :: l else m :: insertNat n l

theorem ev_insertNat (ρ : Nat → Int) (n : Nat) (l : List Nat) : Mono.ev ρ (insertNat n l) = ρ n * Mono.ev ρ l := by
  induction l with
  | nil => rfl
  | cons m l ih =>
    unfold insertNat
    split
    · simp [Mono.ev]
    · unfold Mono.ev at *; simp only [List.map_cons, List.prod_cons, ih]; ring

def Mono.mul (a b : Mono) : Mono := a.foldr insertNat b

theorem Mono.ev_mul (ρ : Nat → Int) (a b : Mono) : Mono.ev ρ (a.mul b) = Mono.ev ρ a * Mono.ev ρ b := by
  induction a with
  | nil => simp [Mono.mul, Mono.ev]
  | cons n a ih =>
    have : Mono.mul (n :: a) b = insertNat n (Mono.mul a b) := rfl
    rw [this, ev_insertNat, ih]
    simp only [Mono.ev, List.map_cons, List.prod_cons]; ring

def Mono.eqb : Mono → Mono → Bool
  | [], [] => true
  | a :: m, b :: m' => bif Nat.beq a b then Mono.eqb m m' else false
  | _, _ => false

theorem Mono.eq_of_eqb : ∀ {a b : Mono}, a.eqb b = true → a = b
  | [], [], _ => rfl
  | a :: m, b :: m', h => by
    unfold Mono.eqb at h
    cases hab : Nat.beq a b with
    | true => rw [hab] at h; rw [Nat.eq_of_beq_eq_true hab, Mono.eq_of_eqb h]
    | false => rw [hab] at h; cases h
  | [], _ :: _, h => by cases h
  | _ :: _, [], h => by cases h

/-- add a term, merging with an equal monomial -/
def Poly.addT (c : Int) (m : Mono) : Poly → Poly
  | [] => [(c, m)]
  | (c', m') :: p => bif m'.eqb m then (if c + c' = 0 then p else (c + c', m) :: p) else (c', m') :: addT c m p

theorem Poly.ev_cons (ρ : Nat → Int) (c : Int) (m : Mono) (p : Poly) : Poly.ev ρ ((c, m) :: p) = c * Mono.ev ρ m + Poly.ev ρ p := by
  simp [Poly.ev]

theorem Poly.ev_addT (ρ : Nat → Int) (c : Int) (m : Mono) (p : Poly) : Poly.ev ρ (p.addT c m) = c * Mono.ev ρ m + Poly.ev ρ p := by
  induction p with
  | nil => simp [addT, Poly.ev]
  | cons t p ih =>
    obtain ⟨c', m'⟩ := t
    unfold addT
    cases h : m'.eqb m with
    | true =>
      have h := Mono.eq_of_eqb h; subst h
      simp only [cond_true]
      split
      · rename_i h0
        rw [ev_cons]
        have : c = -c' := by omega
        subst this; ring
      · rw [ev_cons, ev_cons]; ring
    | false => simp only [cond_false]; rw [ev_cons, ev_cons, ih]; ring

/-- `p + c * m * q` -/
def Poly.addMul (c : Int) (m : Mono) (p q : Poly) : Poly := q.foldr (fun t acc => acc.addT (c * t.1) (t.2.mul m)) p

theorem Poly.ev_addMul (ρ : Nat → Int) (c : Int) (m : Mono) (q p : Poly) :
    Poly.ev ρ (p.addMul c m q) = c * Mono.ev ρ m * Poly.ev ρ q + Poly.ev ρ p := by
  induction q with
  | nil => simp [addMul, Poly.ev]
  | cons t q ih =>
    obtain ⟨c', m'⟩ := t
    have : Poly.addMul c m p ((c', m') :: q) = (Poly.addMul c m p q).addT (c * c') (m'.mul m) := rfl
    rw [this, ev_addT, ih, ev_cons, Mono.ev_mul]; ring

def Poly.add (p q : Poly) : Poly := p.addMul 1 [] q
def Poly.sub (p q : Poly) : Poly := p.addMul (-1) [] q
def Poly.mul (p q : Poly) : Poly := p.foldr (fun t acc => acc.addMul t.1 t.2 q) []

theorem Poly.ev_add (ρ : Nat → Int) (p q : Poly) : (p.add q).ev ρ = p.ev ρ + q.ev ρ := by
  unfold add; rw [ev_addMul]; simp [Mono.ev]; ring
theorem Poly.ev_sub (ρ : Nat → Int) (p q : Poly) : (p.sub q).ev ρ = p.ev ρ - q.ev ρ := by
  unfold sub; rw [ev_addMul]; simp [Mono.ev]; ring
theorem Poly.ev_mul (ρ : Nat → Int) (p q : Poly) : (p.mul q).ev ρ = p.ev ρ * q.ev ρ := by
  induction p with
  | nil => simp [mul, ev]
  | cons t p ih =>
    obtain ⟨c, m⟩ := t
    have : Poly.mul ((c, m) :: p) q = (Poly.mul p q).addMul c m q := rfl
    rw [this, ev_addMul, ih, ev_cons]; ring

/-- the polynomial of an expression -/
def Ex.poly : Ex → Poly
  | .v i => [(1, [i])]
  | .c z => [(z, [])]
  | .add a b => a.poly.add b.poly
  | .sub a b => a.poly.sub b.poly
  | .mul a b => a.poly.mul b.poly
  | .shl a k => a.poly.mul [(((2 ^ k : Nat) : Int), [])]

theorem Ex.ev_poly (ρ : Nat → Int) (e : Ex) : e.poly.ev ρ = e.evZ ρ := by
  induction e with
  | v i => simp [poly, Poly.ev, Mono.ev, evZ]
  | c z => simp [poly, Poly.ev, Mono.ev, evZ]
  | add a b iha ihb => simp only [poly, Poly.ev_add, iha, ihb, evZ]
  | sub a b iha ihb => simp only [poly, Poly.ev_sub, iha, ihb, evZ]
  | mul a b iha ihb => simp only [poly, Poly.ev_mul, iha, ihb, evZ]
  | shl a k iha =>
    simp only [poly, Poly.ev_mul, iha, evZ]
    simp [Poly.ev, Mono.ev]

/-- does the monomial contain the variable? -/
def Mono.has : Mono → Nat → Bool
  | [], _ => false
  | n :: m, d => bif Nat.beq n d then true else Mono.has m d

theorem Mono.has_iff {m : Mono} {d : Nat} : m.has d = true ↔ d ∈ m := by
  induction m with
  | nil => simp [has]
  | cons n m ih =>
    unfold has
    cases h : Nat.beq n d with
    | true => simp [Nat.eq_of_beq_eq_true h]
    | false =>
      have : n ≠ d := fun e => by subst e; simp at h
      simp only [cond_false, ih, List.mem_cons]
      constructor
      · exact Or.inr
      · rintro (h | h)
        · exact absurd h.symm this
        · exact h

theorem Mono.ev_upd {m : Mono} {d : Nat} (h : m.has d = false) (ρ : Nat → Int) (z : Int) : Mono.ev (upd ρ d z) m = Mono.ev ρ m := by
  unfold Mono.ev
  congr 1
  apply List.map_congr_left
  intro i hi
  apply upd_other
  rintro rfl
  rw [Mono.has_iff.mpr hi] at h
  cases h

/-- remove one occurrence -/
def Mono.del (d : Nat) : Mono → Mono
  | [] => []
  | n :: m => if n = d then m else n :: Mono.del d m

theorem Mono.ev_del {m : Mono} {d : Nat} (h : m.has d = true) (ρ : Nat → Int) : Mono.ev ρ m = ρ d * Mono.ev ρ (m.del d) := by
  induction m with
  | nil => simp [has] at h
  | cons n m ih =>
    unfold del
    split
    · rename_i hn; subst hn; simp [ev]
    · rename_i hn
      have : Mono.has m d = true := by
        rw [Mono.has_iff] at *
        rcases List.mem_cons.mp h with h | h
        · exact absurd h.symm hn
        · exact h
      have := ih this
      unfold ev at *
      simp only [List.map_cons, List.prod_cons, this]; ring

/-- Pull a polynomial back over the assignment `d = q`: `acc` collects the result, starting with the terms without `d`. -/
def Poly.pullTerms (d : Nat) (q : Poly) : Poly → Poly → Option Poly
  | [], acc => some acc
  | (c, m) :: p, acc =>
    bif m.has d then (bif (m.del d).has d then none else Poly.pullTerms d q p (acc.addMul c (m.del d) q)) else Poly.pullTerms d q p acc

/-- the terms without `d` -/
def Poly.without (d : Nat) : Poly → Poly
  | [] => []
  | (c, m) :: p => bif m.has d then Poly.without d p else (c, m) :: Poly.without d p

/-- the terms with `d` -/
def Poly.only (d : Nat) : Poly → Poly
  | [] => []
  | (c, m) :: p => bif m.has d then (c, m) :: Poly.only d p else Poly.only d p

def Poly.pull (d : Nat) (q : Poly) (p : Poly) : Option Poly := Poly.pullTerms d q (p.only d) (p.without d)

theorem Poly.ev_split (d : Nat) (ρ : Nat → Int) (z : Int) (p : Poly) :
    p.ev (upd ρ d z) = (p.only d).ev (upd ρ d z) + (p.without d).ev ρ := by
  induction p with
  | nil => simp [only, without, ev]
  | cons t p ih =>
    obtain ⟨c, m⟩ := t
    unfold only without
    cases h : m.has d with
    | true => simp only [cond_true]; rw [ev_cons, ev_cons, ih]; ring
    | false => simp only [cond_false]; rw [ev_cons, ev_cons, ih, Mono.ev_upd h]; ring

theorem Poly.pullTerms_sound {d : Nat} {q : Poly} {ρ : Nat → Int} {z : Int} (hq : q.ev ρ = z) :
    ∀ {p acc p' : Poly}, (∀ t ∈ p, t.2.has d = true) → Poly.pullTerms d q p acc = some p' → p.ev (upd ρ d z) + acc.ev ρ = p'.ev ρ := by
  intro p
  induction p with
  | nil => intro acc p' _ h; simp only [Poly.pullTerms, Option.some.injEq] at h; subst h; simp [ev]
  | cons t p ih =>
    obtain ⟨c, m⟩ := t
    intro acc p' hall h
    have hm : m.has d = true := hall (c, m) (by simp)
    simp only [Poly.pullTerms, hm, cond_true] at h
    cases hd : (m.del d).has d with
    | true => rw [hd] at h; cases h
    | false =>
      rw [hd] at h
      simp only [cond_false] at h
      have := ih (fun t ht => hall t (List.mem_cons_of_mem _ ht)) h
      rw [← this, ev_cons, ev_addMul, Mono.ev_del hm, upd_same, Mono.ev_upd hd, hq]; ring

theorem Poly.only_has (d : Nat) (p : Poly) : ∀ t ∈ p.only d, t.2.has d = true := by
  induction p with
  | nil => intro t ht; cases ht
  | cons t p ih =>
    obtain ⟨c, m⟩ := t
    unfold only
    cases h : m.has d with
    | true =>
      intro t ht
      rcases List.mem_cons.mp ht with rfl | ht
      · exact h
      · exact ih t ht
    | false => exact ih

theorem Poly.pull_sound {d : Nat} {q : Poly} {ρ : Nat → Int} {z : Int} (hq : q.ev ρ = z) {p p' : Poly}
    (h : Poly.pull d q p = some p') : p.ev (upd ρ d z) = p'.ev ρ := by
  rw [Poly.ev_split]
  exact Poly.pullTerms_sound hq (Poly.only_has d p) h

/-- Pull a polynomial back over an assignment of which nothing is used: the coefficients must be multiples of the modulus. -/
def Poly.drop (md : Int) (d : Nat) : Poly → Option Poly
  | [] => some []
  | (c, m) :: p =>
    (Poly.drop md d p).bind fun p' => bif m.has d then (if c % md = 0 then some p' else none) else some ((c, m) :: p')

theorem Poly.drop_sound {md : Int} {d : Nat} {ρ : Nat → Int} {z : Int} :
    ∀ {p p' : Poly}, p.drop md d = some p' → md ∣ p.ev (upd ρ d z) - p'.ev ρ := by
  intro p
  induction p with
  | nil => intro p' h; simp only [drop, Option.some.injEq] at h; subst h; simp [ev]
  | cons t p ih =>
    obtain ⟨c, m⟩ := t
    intro p' h
    simp only [drop, Option.bind_eq_some_iff] at h
    obtain ⟨p1, h1, h⟩ := h
    have ih := ih h1
    cases hm : m.has d with
    | true =>
      rw [hm] at h
      simp only [cond_true] at h
      split at h
      · rename_i hc
        cases h
        have hc : md ∣ c := Int.dvd_of_emod_eq_zero hc
        rw [ev_cons, add_sub_assoc]
        exact Int.dvd_add (hc.mul_right _) ih
      · cases h
    | false =>
      rw [hm] at h
      cases h
      rw [ev_cons, ev_cons, Mono.ev_upd hm]
      have : c * Mono.ev ρ m + ev (upd ρ d z) p - (c * Mono.ev ρ m + ev ρ p1) = ev (upd ρ d z) p - ev ρ p1 := by ring
      rw [this]; exact ih

def St.wp (md : Int) (p : Poly) : St → Option Poly
  | .set _ d e => Poly.pull d e.poly p
  | .shr _ d _ _ => p.drop md d

/-- The polynomial before the program which agrees with `p` after it, modulo `md`. -/
def wp (md : Int) : List St → Poly → Option Poly
  | [], p => some p
  | s :: ss, p => (wp md ss p).bind fun p' => s.wp md p'

theorem wp_sound {md : Int} : ∀ {ss : List St} {p p' : Poly} {ρ : Nat → Int}, wp md ss p = some p' →
    md ∣ p.ev (runZ ss ρ) - p'.ev ρ := by
  intro ss
  induction ss with
  | nil => intro p p' ρ h; simp only [wp, Option.some.injEq] at h; subst h; simp [runZ]
  | cons s ss ih =>
    intro p p' ρ h
    simp only [wp, Option.bind_eq_some_iff] at h
    obtain ⟨p1, h1, h2⟩ := h
    have a := ih (ρ := s.runZ ρ) h1
    have b : md ∣ p1.ev (s.runZ ρ) - p'.ev ρ := by
      cases s with
      | set w d e =>
        have : p1.ev (St.runZ ρ (.set w d e)) = p'.ev ρ := Poly.pull_sound (Ex.ev_poly ρ e) h2
        rw [this, sub_self]; exact dvd_zero _
      | shr w d e k => exact Poly.drop_sound h2
    have : p.ev (runZ (s :: ss) ρ) - p'.ev ρ = (p.ev (runZ ss (s.runZ ρ)) - p1.ev (s.runZ ρ)) + (p1.ev (s.runZ ρ) - p'.ev ρ) := by
      simp only [runZ]; ring
    rw [this]
    exact Int.dvd_add a b

/-- all coefficients are multiples of the modulus -/
def Poly.isZero (md : Int) (p : Poly) : Bool := p.all fun t => t.1 % md == 0

theorem Poly.isZero_sound {md : Int} {p : Poly} (h : p.isZero md = true) (ρ : Nat → Int) : md ∣ p.ev ρ := by
  induction p with
  | nil => simp [ev]
  | cons t p ih =>
    obtain ⟨c, m⟩ := t
    unfold isZero at h
    simp only [List.all_cons, Bool.and_eq_true, beq_iff_eq] at h
    rw [ev_cons]
    exact Int.dvd_add ((Int.dvd_of_emod_eq_zero h.1).mul_right _) (ih h.2)

/-- The check used below: after the program, `p` is congruent to what `q` was before it. -/
def wpCheck (md : Int) (ss : List St) (p q : Poly) : Bool :=
  match wp md ss p with
  | some p' => (p'.sub q).isZero md
  | none => false

theorem wpCheck_sound {md : Int} {ss : List St} {p q : Poly} (h : wpCheck md ss p q = true) (ρ : Nat → Int) :
    md ∣ p.ev (runZ ss ρ) - q.ev ρ := by
  unfold wpCheck at h
  split at h
  · rename_i p' hp
    have h1 := wp_sound (ρ := ρ) hp
    have h2 := Poly.isZero_sound h ρ
    rw [Poly.ev_sub] at h2
    have : p.ev (runZ ss ρ) - q.ev ρ = (p.ev (runZ ss ρ) - p'.ev ρ) + (p'.ev ρ - q.ev ρ) := by ring
    rw [this]; exact Int.dvd_add h1 h2
  · cases h

end Coniks.Ed
