import Verif.Spec.Ed
import Mathlib.NumberTheory.LucasPrimality
import Mathlib.Tactic.NormNum.Prime
/-
The two primes of Ed25519: p = 2^255 - 19 and ℓ are prime, by Pratt certificates checked by the kernel.
-/
namespace Coniks

/-- a^e mod m by squaring, with `f` as fuel -/
def powm (m : Nat) : Nat → Nat → Nat → Nat
  | 0, _, _ => 1 % m
  | f + 1, a, e => if e % 2 = 1 then a * powm m f (a * a % m) (e / 2) % m else powm m f (a * a % m) (e / 2)

theorem powm_eq (m : Nat) : ∀ f a e, e < 2 ^ f → powm m f a e = a ^ e % m
  | 0, a, e, h => by
    have : e = 0 := by simpa using h
    subst this; simp [powm]
  | f + 1, a, e, h => by
    have h2 : e / 2 < 2 ^ f := by rw [Nat.pow_succ] at h; omega
    have sq : (a * a % m) ^ (e / 2) % m = a ^ (2 * (e / 2)) % m := by
      rw [← Nat.pow_mod, Nat.pow_mul, Nat.pow_two]
    unfold powm
    rw [powm_eq m f _ _ h2, sq]
    split
    · rename_i ho
      have : e = 2 * (e / 2) + 1 := by omega
      rw [Nat.mul_mod, Nat.mod_mod, ← Nat.mul_mod]
      conv_rhs => rw [this, Nat.pow_succ, Nat.mul_comm]
    · rename_i ho
      have : 2 * (e / 2) = e := by omega
      rw [this]

/-- one line of a Pratt certificate: n - 1 is the product of the primes `fs`, and `a` has order n - 1 modulo n -/
def prattOk (n a : Nat) (fs : List Nat) : Bool :=
  decide (1 < n) && decide (n < 2 ^ 256) && decide (fs.prod = n - 1) && decide (powm n 256 a (n - 1) = 1) &&
  fs.all fun q => decide (powm n 256 a ((n - 1) / q) ≠ 1)

theorem pratt (n a : Nat) (fs : List Nat) (hfs : ∀ q ∈ fs, Nat.Prime q) (h : prattOk n a fs = true) : Nat.Prime n := by
  simp only [prattOk, Bool.and_eq_true, decide_eq_true_eq, List.all_eq_true] at h
  obtain ⟨⟨⟨⟨h1, hb⟩, hprod⟩, hone⟩, hne⟩ := h
  have toZ : ∀ e, e < 2 ^ 256 → ((a : ZMod n) ^ e = 1 ↔ powm n 256 a e = 1) := by
    intro e he
    rw [powm_eq n 256 a e he, ← Nat.cast_pow, ← Nat.cast_one, ZMod.natCast_eq_natCast_iff']
    rw [Nat.mod_eq_of_lt h1]
  refine lucas_primality n (a : ZMod n) ((toZ _ (by omega)).mpr hone) ?_
  intro q hq hqd
  rw [Ne, toZ _ (lt_of_le_of_lt (Nat.div_le_self _ _) (by omega))]
  have : q ∈ fs := by
    rw [← hprod] at hqd
    obtain ⟨r, hr, hd⟩ := (Nat.Prime.prime hq).dvd_prod_iff.mp hqd
    rwa [(Nat.prime_dvd_prime_iff_eq hq (hfs r hr)).mp hd]
  exact hne q this

private theorem pr_2 : Nat.Prime 2 := by norm_num
private theorem pr_3 : Nat.Prime 3 := by norm_num
private theorem pr_5 : Nat.Prime 5 := by norm_num
private theorem pr_7 : Nat.Prime 7 := by norm_num
private theorem pr_11 : Nat.Prime 11 := by norm_num
private theorem pr_13 : Nat.Prime 13 := by norm_num
private theorem pr_19 : Nat.Prime 19 := by norm_num
private theorem pr_23 : Nat.Prime 23 := by norm_num
private theorem pr_31 : Nat.Prime 31 := by norm_num
private theorem pr_41 : Nat.Prime 41 := by norm_num
private theorem pr_43 : Nat.Prime 43 := by norm_num
private theorem pr_47 : Nat.Prime 47 := by norm_num
private theorem pr_73 : Nat.Prime 73 := by norm_num
private theorem pr_103 : Nat.Prime 103 := by norm_num
private theorem pr_107 : Nat.Prime 107 := by norm_num
private theorem pr_127 : Nat.Prime 127 := by norm_num
private theorem pr_223 : Nat.Prime 223 := by norm_num
private theorem pr_269 : Nat.Prime 269 := by norm_num
private theorem pr_307 : Nat.Prime 307 := by norm_num
private theorem pr_353 : Nat.Prime 353 := by norm_num
private theorem pr_991 : Nat.Prime 991 := by norm_num
private theorem pr_1361 : Nat.Prime 1361 := by norm_num
private theorem pr_2437 : Nat.Prime 2437 := by norm_num
private theorem pr_2551 : Nat.Prime 2551 := by norm_num
private theorem pr_2851 : Nat.Prime 2851 := by norm_num
private theorem pr_3727 : Nat.Prime 3727 := by norm_num
private theorem pr_4153 : Nat.Prime 4153 := by norm_num
private theorem pr_5879 : Nat.Prime 5879 := by norm_num
private theorem pr_30703 : Nat.Prime 30703 := by norm_num
private theorem pr_57467 : Nat.Prime 57467 := by norm_num
private theorem pr_65147 : Nat.Prime 65147 := by norm_num
private theorem pr_75707 : Nat.Prime 75707 := by norm_num
private theorem pr_82163 : Nat.Prime 82163 := by norm_num
private theorem pr_132049 : Nat.Prime 132049 := by norm_num
private theorem pr_132667 : Nat.Prime 132667 := by norm_num
private theorem pr_137849 : Nat.Prime 137849 := by norm_num
private theorem pr_409477 : Nat.Prime 409477 := by norm_num
private theorem pr_430751 : Nat.Prime 430751 := by norm_num
private theorem pr_531581 : Nat.Prime 531581 := by norm_num
private theorem pr_569003 : Nat.Prime 569003 := by norm_num

private theorem pr_14741173 : Nat.Prime 14741173 := by
  refine pratt _ 2 [2, 2, 3, 3, 409477] ?_ (by decide +kernel)
  simp only [List.forall_mem_cons, List.not_mem_nil, false_implies, implies_true, and_true]
  exact ⟨pr_2, pr_2, pr_3, pr_3, pr_409477⟩
private theorem pr_58964693 : Nat.Prime 58964693 := by
  refine pratt _ 2 [2, 2, 14741173] ?_ (by decide +kernel)
  simp only [List.forall_mem_cons, List.not_mem_nil, false_implies, implies_true, and_true]
  exact ⟨pr_2, pr_2, pr_14741173⟩
private theorem pr_3044861653679985063343 : Nat.Prime 3044861653679985063343 := by
  refine pratt _ 5 [2, 3, 11, 30703, 82163, 132667, 137849] ?_ (by decide +kernel)
  simp only [List.forall_mem_cons, List.not_mem_nil, false_implies, implies_true, and_true]
  exact ⟨pr_2, pr_3, pr_11, pr_30703, pr_82163, pr_132667, pr_137849⟩
private theorem pr_198211423230930754013084525763697 : Nat.Prime 198211423230930754013084525763697 := by
  refine pratt _ 5 [2, 2, 2, 2, 3, 23, 58964693, 3044861653679985063343] ?_ (by decide +kernel)
  simp only [List.forall_mem_cons, List.not_mem_nil, false_implies, implies_true, and_true]
  exact ⟨pr_2, pr_2, pr_2, pr_2, pr_3, pr_23, pr_58964693, pr_3044861653679985063343⟩
private theorem pr_292386187 : Nat.Prime 292386187 := by
  refine pratt _ 2 [2, 3, 3, 3, 3, 307, 5879] ?_ (by decide +kernel)
  simp only [List.forall_mem_cons, List.not_mem_nil, false_implies, implies_true, and_true]
  exact ⟨pr_2, pr_3, pr_3, pr_3, pr_3, pr_307, pr_5879⟩
private theorem pr_213441916511 : Nat.Prime 213441916511 := by
  refine pratt _ 13 [2, 5, 73, 292386187] ?_ (by decide +kernel)
  simp only [List.forall_mem_cons, List.not_mem_nil, false_implies, implies_true, and_true]
  exact ⟨pr_2, pr_5, pr_73, pr_292386187⟩
private theorem pr_1224481 : Nat.Prime 1224481 := by
  refine pratt _ 13 [2, 2, 2, 2, 2, 3, 5, 2551] ?_ (by decide +kernel)
  simp only [List.forall_mem_cons, List.not_mem_nil, false_implies, implies_true, and_true]
  exact ⟨pr_2, pr_2, pr_2, pr_2, pr_2, pr_3, pr_5, pr_2551⟩
private theorem pr_1257559732178653 : Nat.Prime 1257559732178653 := by
  refine pratt _ 2 [2, 2, 3, 7, 23, 531581, 1224481] ?_ (by decide +kernel)
  simp only [List.forall_mem_cons, List.not_mem_nil, false_implies, implies_true, and_true]
  exact ⟨pr_2, pr_2, pr_3, pr_7, pr_23, pr_531581, pr_1224481⟩
private theorem pr_4434155615661930479 : Nat.Prime 4434155615661930479 := by
  refine pratt _ 17 [2, 41, 43, 1257559732178653] ?_ (by decide +kernel)
  simp only [List.forall_mem_cons, List.not_mem_nil, false_implies, implies_true, and_true]
  exact ⟨pr_2, pr_41, pr_43, pr_1257559732178653⟩
private theorem pr_172054593956031949258510691 : Nat.Prime 172054593956031949258510691 := by
  refine pratt _ 2 [2, 5, 1361, 2851, 4434155615661930479] ?_ (by decide +kernel)
  simp only [List.forall_mem_cons, List.not_mem_nil, false_implies, implies_true, and_true]
  exact ⟨pr_2, pr_5, pr_1361, pr_2851, pr_4434155615661930479⟩
private theorem pr_19757330305831588566944191468367130476339 : Nat.Prime 19757330305831588566944191468367130476339 := by
  refine pratt _ 2 [2, 269, 213441916511, 172054593956031949258510691] ?_ (by decide +kernel)
  simp only [List.forall_mem_cons, List.not_mem_nil, false_implies, implies_true, and_true]
  exact ⟨pr_2, pr_269, pr_213441916511, pr_172054593956031949258510691⟩
private theorem pr_276602624281642239937218680557139826668747 : Nat.Prime 276602624281642239937218680557139826668747 := by
  refine pratt _ 2 [2, 7, 19757330305831588566944191468367130476339] ?_ (by decide +kernel)
  simp only [List.forall_mem_cons, List.not_mem_nil, false_implies, implies_true, and_true]
  exact ⟨pr_2, pr_7, pr_19757330305831588566944191468367130476339⟩
theorem prime_ell_lit : Nat.Prime 7237005577332262213973186563042994240857116359379907606001950938285454250989 := by
  refine pratt _ 2 [2, 2, 3, 11, 198211423230930754013084525763697, 276602624281642239937218680557139826668747] ?_ (by decide +kernel)
  simp only [List.forall_mem_cons, List.not_mem_nil, false_implies, implies_true, and_true]
  exact ⟨pr_2, pr_2, pr_3, pr_11, pr_198211423230930754013084525763697, pr_276602624281642239937218680557139826668747⟩
private theorem pr_1923133 : Nat.Prime 1923133 := by
  refine pratt _ 2 [2, 2, 3, 43, 3727] ?_ (by decide +kernel)
  simp only [List.forall_mem_cons, List.not_mem_nil, false_implies, implies_true, and_true]
  exact ⟨pr_2, pr_2, pr_3, pr_43, pr_3727⟩
private theorem pr_31757755568855353 : Nat.Prime 31757755568855353 := by
  refine pratt _ 10 [2, 2, 2, 3, 31, 107, 223, 4153, 430751] ?_ (by decide +kernel)
  simp only [List.forall_mem_cons, List.not_mem_nil, false_implies, implies_true, and_true]
  exact ⟨pr_2, pr_2, pr_2, pr_3, pr_31, pr_107, pr_223, pr_4153, pr_430751⟩
private theorem pr_2773320623 : Nat.Prime 2773320623 := by
  refine pratt _ 5 [2, 2437, 569003] ?_ (by decide +kernel)
  simp only [List.forall_mem_cons, List.not_mem_nil, false_implies, implies_true, and_true]
  exact ⟨pr_2, pr_2437, pr_569003⟩
private theorem pr_72106336199 : Nat.Prime 72106336199 := by
  refine pratt _ 7 [2, 13, 2773320623] ?_ (by decide +kernel)
  simp only [List.forall_mem_cons, List.not_mem_nil, false_implies, implies_true, and_true]
  exact ⟨pr_2, pr_13, pr_2773320623⟩
private theorem pr_8574133 : Nat.Prime 8574133 := by
  refine pratt _ 2 [2, 2, 3, 7, 103, 991] ?_ (by decide +kernel)
  simp only [List.forall_mem_cons, List.not_mem_nil, false_implies, implies_true, and_true]
  exact ⟨pr_2, pr_2, pr_3, pr_7, pr_103, pr_991⟩
private theorem pr_1919519569386763 : Nat.Prime 1919519569386763 := by
  refine pratt _ 2 [2, 3, 7, 19, 47, 47, 127, 8574133] ?_ (by decide +kernel)
  simp only [List.forall_mem_cons, List.not_mem_nil, false_implies, implies_true, and_true]
  exact ⟨pr_2, pr_3, pr_7, pr_19, pr_47, pr_47, pr_127, pr_8574133⟩
private theorem pr_75445702479781427272750846543864801 : Nat.Prime 75445702479781427272750846543864801 := by
  refine pratt _ 7 [2, 2, 2, 2, 2, 3, 3, 5, 5, 75707, 72106336199, 1919519569386763] ?_ (by decide +kernel)
  simp only [List.forall_mem_cons, List.not_mem_nil, false_implies, implies_true, and_true]
  exact ⟨pr_2, pr_2, pr_2, pr_2, pr_2, pr_3, pr_3, pr_5, pr_5, pr_75707, pr_72106336199, pr_1919519569386763⟩
private theorem pr_74058212732561358302231226437062788676166966415465897661863160754340907 : Nat.Prime 74058212732561358302231226437062788676166966415465897661863160754340907 := by
  refine pratt _ 2 [2, 3, 353, 57467, 132049, 1923133, 31757755568855353, 75445702479781427272750846543864801] ?_ (by decide +kernel)
  simp only [List.forall_mem_cons, List.not_mem_nil, false_implies, implies_true, and_true]
  exact ⟨pr_2, pr_3, pr_353, pr_57467, pr_132049, pr_1923133, pr_31757755568855353, pr_75445702479781427272750846543864801⟩
theorem prime_p : Nat.Prime 57896044618658097711785492504343953926634992332820282019728792003956564819949 := by
  refine pratt _ 2 [2, 2, 3, 65147, 74058212732561358302231226437062788676166966415465897661863160754340907] ?_ (by decide +kernel)
  simp only [List.forall_mem_cons, List.not_mem_nil, false_implies, implies_true, and_true]
  exact ⟨pr_2, pr_2, pr_3, pr_65147, pr_74058212732561358302231226437062788676166966415465897661863160754340907⟩

theorem prime_ell : Nat.Prime Spec.ell := by
  have : Spec.ell = 7237005577332262213973186563042994240857116359379907606001950938285454250989 := by unfold Spec.ell; norm_num
  rw [this]; exact prime_ell_lit

end Coniks
