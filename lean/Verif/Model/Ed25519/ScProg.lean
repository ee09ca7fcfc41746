import Verif.Model.Ed25519.Word
/-
The scalar arithmetic of crypto/internal/ed25519/edwards25519/edwards25519.go.

Generated by tools/gen_ed.py: one assignment per statement of the Go source, in the same order. `carryI` is `carry[I]`.
-/
namespace Coniks.Ed

namespace ScMulAdd

/-! Variables of `ScMulAdd`, crypto/internal/ed25519/edwards25519/edwards25519.go:1480-1903. -/
/-- edwards25519.go:1480-1903 -/ def s0 : Ex := .v 0
/-- edwards25519.go:1480-1903 -/ def s1 : Ex := .v 1
/-- edwards25519.go:1480-1903 -/ def s2 : Ex := .v 2
/-- edwards25519.go:1480-1903 -/ def s3 : Ex := .v 3
/-- edwards25519.go:1480-1903 -/ def s4 : Ex := .v 4
/-- edwards25519.go:1480-1903 -/ def s5 : Ex := .v 5
/-- edwards25519.go:1480-1903 -/ def s6 : Ex := .v 6
/-- edwards25519.go:1480-1903 -/ def s7 : Ex := .v 7
/-- edwards25519.go:1480-1903 -/ def s8 : Ex := .v 8
/-- edwards25519.go:1480-1903 -/ def s9 : Ex := .v 9
/-- edwards25519.go:1480-1903 -/ def s10 : Ex := .v 10
/-- edwards25519.go:1480-1903 -/ def s11 : Ex := .v 11
/-- edwards25519.go:1480-1903 -/ def s12 : Ex := .v 12
/-- edwards25519.go:1480-1903 -/ def s13 : Ex := .v 13
/-- edwards25519.go:1480-1903 -/ def s14 : Ex := .v 14
/-- edwards25519.go:1480-1903 -/ def s15 : Ex := .v 15
/-- edwards25519.go:1480-1903 -/ def s16 : Ex := .v 16
/-- edwards25519.go:1480-1903 -/ def s17 : Ex := .v 17
/-- edwards25519.go:1480-1903 -/ def s18 : Ex := .v 18
/-- edwards25519.go:1480-1903 -/ def s19 : Ex := .v 19
/-- edwards25519.go:1480-1903 -/ def s20 : Ex := .v 20
/-- edwards25519.go:1480-1903 -/ def s21 : Ex := .v 21
/-- edwards25519.go:1480-1903 -/ def s22 : Ex := .v 22
/-- edwards25519.go:1480-1903 -/ def s23 : Ex := .v 23
/-- edwards25519.go:1480-1903 -/ def a0 : Ex := .v 24
/-- edwards25519.go:1480-1903 -/ def a1 : Ex := .v 25
/-- edwards25519.go:1480-1903 -/ def a2 : Ex := .v 26
/-- edwards25519.go:1480-1903 -/ def a3 : Ex := .v 27
/-- edwards25519.go:1480-1903 -/ def a4 : Ex := .v 28
/-- edwards25519.go:1480-1903 -/ def a5 : Ex := .v 29
/-- edwards25519.go:1480-1903 -/ def a6 : Ex := .v 30
/-- edwards25519.go:1480-1903 -/ def a7 : Ex := .v 31
/-- edwards25519.go:1480-1903 -/ def a8 : Ex := .v 32
/-- edwards25519.go:1480-1903 -/ def a9 : Ex := .v 33
/-- edwards25519.go:1480-1903 -/ def a10 : Ex := .v 34
/-- edwards25519.go:1480-1903 -/ def a11 : Ex := .v 35
/-- edwards25519.go:1480-1903 -/ def b0 : Ex := .v 36
/-- edwards25519.go:1480-1903 -/ def b1 : Ex := .v 37
/-- edwards25519.go:1480-1903 -/ def b2 : Ex := .v 38
/-- edwards25519.go:1480-1903 -/ def b3 : Ex := .v 39
/-- edwards25519.go:1480-1903 -/ def b4 : Ex := .v 40
/-- edwards25519.go:1480-1903 -/ def b5 : Ex := .v 41
/-- edwards25519.go:1480-1903 -/ def b6 : Ex := .v 42
/-- edwards25519.go:1480-1903 -/ def b7 : Ex := .v 43
/-- edwards25519.go:1480-1903 -/ def b8 : Ex := .v 44
/-- edwards25519.go:1480-1903 -/ def b9 : Ex := .v 45
/-- edwards25519.go:1480-1903 -/ def b10 : Ex := .v 46
/-- edwards25519.go:1480-1903 -/ def b11 : Ex := .v 47
/-- edwards25519.go:1480-1903 -/ def c0 : Ex := .v 48
/-- edwards25519.go:1480-1903 -/ def c1 : Ex := .v 49
/-- edwards25519.go:1480-1903 -/ def c2 : Ex := .v 50
/-- edwards25519.go:1480-1903 -/ def c3 : Ex := .v 51
/-- edwards25519.go:1480-1903 -/ def c4 : Ex := .v 52
/-- edwards25519.go:1480-1903 -/ def c5 : Ex := .v 53
/-- edwards25519.go:1480-1903 -/ def c6 : Ex := .v 54
/-- edwards25519.go:1480-1903 -/ def c7 : Ex := .v 55
/-- edwards25519.go:1480-1903 -/ def c8 : Ex := .v 56
/-- edwards25519.go:1480-1903 -/ def c9 : Ex := .v 57
/-- edwards25519.go:1480-1903 -/ def c10 : Ex := .v 58
/-- edwards25519.go:1480-1903 -/ def c11 : Ex := .v 59
/-- edwards25519.go:1480-1903 -/ def carry0 : Ex := .v 60
/-- edwards25519.go:1480-1903 -/ def carry2 : Ex := .v 61
/-- edwards25519.go:1480-1903 -/ def carry4 : Ex := .v 62
/-- edwards25519.go:1480-1903 -/ def carry6 : Ex := .v 63
/-- edwards25519.go:1480-1903 -/ def carry8 : Ex := .v 64
/-- edwards25519.go:1480-1903 -/ def carry10 : Ex := .v 65
/-- edwards25519.go:1480-1903 -/ def carry12 : Ex := .v 66
/-- edwards25519.go:1480-1903 -/ def carry14 : Ex := .v 67
/-- edwards25519.go:1480-1903 -/ def carry16 : Ex := .v 68
/-- edwards25519.go:1480-1903 -/ def carry18 : Ex := .v 69
/-- edwards25519.go:1480-1903 -/ def carry20 : Ex := .v 70
/-- edwards25519.go:1480-1903 -/ def carry22 : Ex := .v 71
/-- edwards25519.go:1480-1903 -/ def carry1 : Ex := .v 72
/-- edwards25519.go:1480-1903 -/ def carry3 : Ex := .v 73
/-- edwards25519.go:1480-1903 -/ def carry5 : Ex := .v 74
/-- edwards25519.go:1480-1903 -/ def carry7 : Ex := .v 75
/-- edwards25519.go:1480-1903 -/ def carry9 : Ex := .v 76
/-- edwards25519.go:1480-1903 -/ def carry11 : Ex := .v 77
/-- edwards25519.go:1480-1903 -/ def carry13 : Ex := .v 78
/-- edwards25519.go:1480-1903 -/ def carry15 : Ex := .v 79
/-- edwards25519.go:1480-1903 -/ def carry17 : Ex := .v 80
/-- edwards25519.go:1480-1903 -/ def carry19 : Ex := .v 81
/-- edwards25519.go:1480-1903 -/ def carry21 : Ex := .v 82

/-- crypto/internal/ed25519/edwards25519/edwards25519.go:1519-1791 (`ScMulAdd`: products, carries and folding) -/
def mul : List St := [
  set64 s0 (c0 + (a0 * b0)),
  set64 s1 (c1 + (a0 * b1) + (a1 * b0)),
  set64 s2 (c2 + (a0 * b2) + (a1 * b1) + (a2 * b0)),
  set64 s3 (c3 + (a0 * b3) + (a1 * b2) + (a2 * b1) + (a3 * b0)),
  set64 s4 (c4 + (a0 * b4) + (a1 * b3) + (a2 * b2) + (a3 * b1) + (a4 * b0)),
  set64 s5 (c5 + (a0 * b5) + (a1 * b4) + (a2 * b3) + (a3 * b2) + (a4 * b1) + (a5 * b0)),
  set64 s6 (c6 + (a0 * b6) + (a1 * b5) + (a2 * b4) + (a3 * b3) + (a4 * b2) + (a5 * b1) + (a6 * b0)),
  set64 s7 (c7 + (a0 * b7) + (a1 * b6) + (a2 * b5) + (a3 * b4) + (a4 * b3) + (a5 * b2) + (a6 * b1) + (a7 * b0)),
  set64 s8 (c8 + (a0 * b8) + (a1 * b7) + (a2 * b6) + (a3 * b5) + (a4 * b4) + (a5 * b3) + (a6 * b2) + (a7 * b1) + (a8 * b0)),
  set64 s9 (c9 + (a0 * b9) + (a1 * b8) + (a2 * b7) + (a3 * b6) + (a4 * b5) + (a5 * b4) + (a6 * b3) + (a7 * b2) + (a8 * b1) + (a9 * b0)),
  set64 s10 (c10 + (a0 * b10) + (a1 * b9) + (a2 * b8) + (a3 * b7) + (a4 * b6) + (a5 * b5) + (a6 * b4) + (a7 * b3) + (a8 * b2) + (a9 * b1) + (a10 * b0)),
  set64 s11 (c11 + (a0 * b11) + (a1 * b10) + (a2 * b9) + (a3 * b8) + (a4 * b7) + (a5 * b6) + (a6 * b5) + (a7 * b4) + (a8 * b3) + (a9 * b2) + (a10 * b1) + (a11 * b0)),
  set64 s12 ((a1 * b11) + (a2 * b10) + (a3 * b9) + (a4 * b8) + (a5 * b7) + (a6 * b6) + (a7 * b5) + (a8 * b4) + (a9 * b3) + (a10 * b2) + (a11 * b1)),
  set64 s13 ((a2 * b11) + (a3 * b10) + (a4 * b9) + (a5 * b8) + (a6 * b7) + (a7 * b6) + (a8 * b5) + (a9 * b4) + (a10 * b3) + (a11 * b2)),
  set64 s14 ((a3 * b11) + (a4 * b10) + (a5 * b9) + (a6 * b8) + (a7 * b7) + (a8 * b6) + (a9 * b5) + (a10 * b4) + (a11 * b3)),
  set64 s15 ((a4 * b11) + (a5 * b10) + (a6 * b9) + (a7 * b8) + (a8 * b7) + (a9 * b6) + (a10 * b5) + (a11 * b4)),
  set64 s16 ((a5 * b11) + (a6 * b10) + (a7 * b9) + (a8 * b8) + (a9 * b7) + (a10 * b6) + (a11 * b5)),
  set64 s17 ((a6 * b11) + (a7 * b10) + (a8 * b9) + (a9 * b8) + (a10 * b7) + (a11 * b6)),
  set64 s18 ((a7 * b11) + (a8 * b10) + (a9 * b9) + (a10 * b8) + (a11 * b7)),
  set64 s19 ((a8 * b11) + (a9 * b10) + (a10 * b9) + (a11 * b8)),
  set64 s20 ((a9 * b11) + (a10 * b10) + (a11 * b9)),
  set64 s21 ((a10 * b11) + (a11 * b10)),
  set64 s22 (a11 * b11),
  set64 s23 0,
  shr64 carry0 (s0 + 1048576) 21,
  set64 s1 (s1 + carry0),
  set64 s0 (s0 - (carry0 <<< 21)),
  shr64 carry2 (s2 + 1048576) 21,
  set64 s3 (s3 + carry2),
  set64 s2 (s2 - (carry2 <<< 21)),
  shr64 carry4 (s4 + 1048576) 21,
  set64 s5 (s5 + carry4),
  set64 s4 (s4 - (carry4 <<< 21)),
  shr64 carry6 (s6 + 1048576) 21,
  set64 s7 (s7 + carry6),
  set64 s6 (s6 - (carry6 <<< 21)),
  shr64 carry8 (s8 + 1048576) 21,
  set64 s9 (s9 + carry8),
  set64 s8 (s8 - (carry8 <<< 21)),
  shr64 carry10 (s10 + 1048576) 21,
  set64 s11 (s11 + carry10),
  set64 s10 (s10 - (carry10 <<< 21)),
  shr64 carry12 (s12 + 1048576) 21,
  set64 s13 (s13 + carry12),
  set64 s12 (s12 - (carry12 <<< 21)),
  shr64 carry14 (s14 + 1048576) 21,
  set64 s15 (s15 + carry14),
  set64 s14 (s14 - (carry14 <<< 21)),
  shr64 carry16 (s16 + 1048576) 21,
  set64 s17 (s17 + carry16),
  set64 s16 (s16 - (carry16 <<< 21)),
  shr64 carry18 (s18 + 1048576) 21,
  set64 s19 (s19 + carry18),
  set64 s18 (s18 - (carry18 <<< 21)),
  shr64 carry20 (s20 + 1048576) 21,
  set64 s21 (s21 + carry20),
  set64 s20 (s20 - (carry20 <<< 21)),
  shr64 carry22 (s22 + 1048576) 21,
  set64 s23 (s23 + carry22),
  set64 s22 (s22 - (carry22 <<< 21)),
  shr64 carry1 (s1 + 1048576) 21,
  set64 s2 (s2 + carry1),
  set64 s1 (s1 - (carry1 <<< 21)),
  shr64 carry3 (s3 + 1048576) 21,
  set64 s4 (s4 + carry3),
  set64 s3 (s3 - (carry3 <<< 21)),
  shr64 carry5 (s5 + 1048576) 21,
  set64 s6 (s6 + carry5),
  set64 s5 (s5 - (carry5 <<< 21)),
  shr64 carry7 (s7 + 1048576) 21,
  set64 s8 (s8 + carry7),
  set64 s7 (s7 - (carry7 <<< 21)),
  shr64 carry9 (s9 + 1048576) 21,
  set64 s10 (s10 + carry9),
  set64 s9 (s9 - (carry9 <<< 21)),
  shr64 carry11 (s11 + 1048576) 21,
  set64 s12 (s12 + carry11),
  set64 s11 (s11 - (carry11 <<< 21)),
  shr64 carry13 (s13 + 1048576) 21,
  set64 s14 (s14 + carry13),
  set64 s13 (s13 - (carry13 <<< 21)),
  shr64 carry15 (s15 + 1048576) 21,
  set64 s16 (s16 + carry15),
  set64 s15 (s15 - (carry15 <<< 21)),
  shr64 carry17 (s17 + 1048576) 21,
  set64 s18 (s18 + carry17),
  set64 s17 (s17 - (carry17 <<< 21)),
  shr64 carry19 (s19 + 1048576) 21,
  set64 s20 (s20 + carry19),
  set64 s19 (s19 - (carry19 <<< 21)),
  shr64 carry21 (s21 + 1048576) 21,
  set64 s22 (s22 + carry21),
  set64 s21 (s21 - (carry21 <<< 21)),
  set64 s11 (s11 + (s23 * 666643)),
  set64 s12 (s12 + (s23 * 470296)),
  set64 s13 (s13 + (s23 * 654183)),
  set64 s14 (s14 - (s23 * 997805)),
  set64 s15 (s15 + (s23 * 136657)),
  set64 s16 (s16 - (s23 * 683901)),
  set64 s23 0,
  set64 s10 (s10 + (s22 * 666643)),
  set64 s11 (s11 + (s22 * 470296)),
  set64 s12 (s12 + (s22 * 654183)),
  set64 s13 (s13 - (s22 * 997805)),
  set64 s14 (s14 + (s22 * 136657)),
  set64 s15 (s15 - (s22 * 683901)),
  set64 s22 0,
  set64 s9 (s9 + (s21 * 666643)),
  set64 s10 (s10 + (s21 * 470296)),
  set64 s11 (s11 + (s21 * 654183)),
  set64 s12 (s12 - (s21 * 997805)),
  set64 s13 (s13 + (s21 * 136657)),
  set64 s14 (s14 - (s21 * 683901)),
  set64 s21 0,
  set64 s8 (s8 + (s20 * 666643)),
  set64 s9 (s9 + (s20 * 470296)),
  set64 s10 (s10 + (s20 * 654183)),
  set64 s11 (s11 - (s20 * 997805)),
  set64 s12 (s12 + (s20 * 136657)),
  set64 s13 (s13 - (s20 * 683901)),
  set64 s20 0,
  set64 s7 (s7 + (s19 * 666643)),
  set64 s8 (s8 + (s19 * 470296)),
  set64 s9 (s9 + (s19 * 654183)),
  set64 s10 (s10 - (s19 * 997805)),
  set64 s11 (s11 + (s19 * 136657)),
  set64 s12 (s12 - (s19 * 683901)),
  set64 s19 0,
  set64 s6 (s6 + (s18 * 666643)),
  set64 s7 (s7 + (s18 * 470296)),
  set64 s8 (s8 + (s18 * 654183)),
  set64 s9 (s9 - (s18 * 997805)),
  set64 s10 (s10 + (s18 * 136657)),
  set64 s11 (s11 - (s18 * 683901)),
  set64 s18 0,
  shr64 carry6 (s6 + 1048576) 21,
  set64 s7 (s7 + carry6),
  set64 s6 (s6 - (carry6 <<< 21)),
  shr64 carry8 (s8 + 1048576) 21,
  set64 s9 (s9 + carry8),
  set64 s8 (s8 - (carry8 <<< 21)),
  shr64 carry10 (s10 + 1048576) 21,
  set64 s11 (s11 + carry10),
  set64 s10 (s10 - (carry10 <<< 21)),
  shr64 carry12 (s12 + 1048576) 21,
  set64 s13 (s13 + carry12),
  set64 s12 (s12 - (carry12 <<< 21)),
  shr64 carry14 (s14 + 1048576) 21,
  set64 s15 (s15 + carry14),
  set64 s14 (s14 - (carry14 <<< 21)),
  shr64 carry16 (s16 + 1048576) 21,
  set64 s17 (s17 + carry16),
  set64 s16 (s16 - (carry16 <<< 21)),
  shr64 carry7 (s7 + 1048576) 21,
  set64 s8 (s8 + carry7),
  set64 s7 (s7 - (carry7 <<< 21)),
  shr64 carry9 (s9 + 1048576) 21,
  set64 s10 (s10 + carry9),
  set64 s9 (s9 - (carry9 <<< 21)),
  shr64 carry11 (s11 + 1048576) 21,
  set64 s12 (s12 + carry11),
  set64 s11 (s11 - (carry11 <<< 21)),
  shr64 carry13 (s13 + 1048576) 21,
  set64 s14 (s14 + carry13),
  set64 s13 (s13 - (carry13 <<< 21)),
  shr64 carry15 (s15 + 1048576) 21,
  set64 s16 (s16 + carry15),
  set64 s15 (s15 - (carry15 <<< 21)),
  set64 s5 (s5 + (s17 * 666643)),
  set64 s6 (s6 + (s17 * 470296)),
  set64 s7 (s7 + (s17 * 654183)),
  set64 s8 (s8 - (s17 * 997805)),
  set64 s9 (s9 + (s17 * 136657)),
  set64 s10 (s10 - (s17 * 683901)),
  set64 s17 0,
  set64 s4 (s4 + (s16 * 666643)),
  set64 s5 (s5 + (s16 * 470296)),
  set64 s6 (s6 + (s16 * 654183)),
  set64 s7 (s7 - (s16 * 997805)),
  set64 s8 (s8 + (s16 * 136657)),
  set64 s9 (s9 - (s16 * 683901)),
  set64 s16 0,
  set64 s3 (s3 + (s15 * 666643)),
  set64 s4 (s4 + (s15 * 470296)),
  set64 s5 (s5 + (s15 * 654183)),
  set64 s6 (s6 - (s15 * 997805)),
  set64 s7 (s7 + (s15 * 136657)),
  set64 s8 (s8 - (s15 * 683901)),
  set64 s15 0,
  set64 s2 (s2 + (s14 * 666643)),
  set64 s3 (s3 + (s14 * 470296)),
  set64 s4 (s4 + (s14 * 654183)),
  set64 s5 (s5 - (s14 * 997805)),
  set64 s6 (s6 + (s14 * 136657)),
  set64 s7 (s7 - (s14 * 683901)),
  set64 s14 0,
  set64 s1 (s1 + (s13 * 666643)),
  set64 s2 (s2 + (s13 * 470296)),
  set64 s3 (s3 + (s13 * 654183)),
  set64 s4 (s4 - (s13 * 997805)),
  set64 s5 (s5 + (s13 * 136657)),
  set64 s6 (s6 - (s13 * 683901)),
  set64 s13 0,
  set64 s0 (s0 + (s12 * 666643)),
  set64 s1 (s1 + (s12 * 470296)),
  set64 s2 (s2 + (s12 * 654183)),
  set64 s3 (s3 - (s12 * 997805)),
  set64 s4 (s4 + (s12 * 136657)),
  set64 s5 (s5 - (s12 * 683901)),
  set64 s12 0,
  shr64 carry0 (s0 + 1048576) 21,
  set64 s1 (s1 + carry0),
  set64 s0 (s0 - (carry0 <<< 21)),
  shr64 carry2 (s2 + 1048576) 21,
  set64 s3 (s3 + carry2),
  set64 s2 (s2 - (carry2 <<< 21)),
  shr64 carry4 (s4 + 1048576) 21,
  set64 s5 (s5 + carry4),
  set64 s4 (s4 - (carry4 <<< 21)),
  shr64 carry6 (s6 + 1048576) 21,
  set64 s7 (s7 + carry6),
  set64 s6 (s6 - (carry6 <<< 21)),
  shr64 carry8 (s8 + 1048576) 21,
  set64 s9 (s9 + carry8),
  set64 s8 (s8 - (carry8 <<< 21)),
  shr64 carry10 (s10 + 1048576) 21,
  set64 s11 (s11 + carry10),
  set64 s10 (s10 - (carry10 <<< 21)),
  shr64 carry1 (s1 + 1048576) 21,
  set64 s2 (s2 + carry1),
  set64 s1 (s1 - (carry1 <<< 21)),
  shr64 carry3 (s3 + 1048576) 21,
  set64 s4 (s4 + carry3),
  set64 s3 (s3 - (carry3 <<< 21)),
  shr64 carry5 (s5 + 1048576) 21,
  set64 s6 (s6 + carry5),
  set64 s5 (s5 - (carry5 <<< 21)),
  shr64 carry7 (s7 + 1048576) 21,
  set64 s8 (s8 + carry7),
  set64 s7 (s7 - (carry7 <<< 21)),
  shr64 carry9 (s9 + 1048576) 21,
  set64 s10 (s10 + carry9),
  set64 s9 (s9 - (carry9 <<< 21)),
  shr64 carry11 (s11 + 1048576) 21,
  set64 s12 (s12 + carry11),
  set64 s11 (s11 - (carry11 <<< 21)),
  set64 s0 (s0 + (s12 * 666643)),
  set64 s1 (s1 + (s12 * 470296)),
  set64 s2 (s2 + (s12 * 654183)),
  set64 s3 (s3 - (s12 * 997805)),
  set64 s4 (s4 + (s12 * 136657)),
  set64 s5 (s5 - (s12 * 683901)),
  set64 s12 0]

/-- crypto/internal/ed25519/edwards25519/edwards25519.go:1792-1828 (`ScMulAdd`: the carries rounding down) -/
def floor : List St := [
  shr64 carry0 s0 21,
  set64 s1 (s1 + carry0),
  set64 s0 (s0 - (carry0 <<< 21)),
  shr64 carry1 s1 21,
  set64 s2 (s2 + carry1),
  set64 s1 (s1 - (carry1 <<< 21)),
  shr64 carry2 s2 21,
  set64 s3 (s3 + carry2),
  set64 s2 (s2 - (carry2 <<< 21)),
  shr64 carry3 s3 21,
  set64 s4 (s4 + carry3),
  set64 s3 (s3 - (carry3 <<< 21)),
  shr64 carry4 s4 21,
  set64 s5 (s5 + carry4),
  set64 s4 (s4 - (carry4 <<< 21)),
  shr64 carry5 s5 21,
  set64 s6 (s6 + carry5),
  set64 s5 (s5 - (carry5 <<< 21)),
  shr64 carry6 s6 21,
  set64 s7 (s7 + carry6),
  set64 s6 (s6 - (carry6 <<< 21)),
  shr64 carry7 s7 21,
  set64 s8 (s8 + carry7),
  set64 s7 (s7 - (carry7 <<< 21)),
  shr64 carry8 s8 21,
  set64 s9 (s9 + carry8),
  set64 s8 (s8 - (carry8 <<< 21)),
  shr64 carry9 s9 21,
  set64 s10 (s10 + carry9),
  set64 s9 (s9 - (carry9 <<< 21)),
  shr64 carry10 s10 21,
  set64 s11 (s11 + carry10),
  set64 s10 (s10 - (carry10 <<< 21)),
  shr64 carry11 s11 21,
  set64 s12 (s12 + carry11),
  set64 s11 (s11 - (carry11 <<< 21))]

/-- crypto/internal/ed25519/edwards25519/edwards25519.go:1829-1870 (`ScMulAdd`: the last folding) -/
def last : List St := [
  set64 s0 (s0 + (s12 * 666643)),
  set64 s1 (s1 + (s12 * 470296)),
  set64 s2 (s2 + (s12 * 654183)),
  set64 s3 (s3 - (s12 * 997805)),
  set64 s4 (s4 + (s12 * 136657)),
  set64 s5 (s5 - (s12 * 683901)),
  set64 s12 0,
  shr64 carry0 s0 21,
  set64 s1 (s1 + carry0),
  set64 s0 (s0 - (carry0 <<< 21)),
  shr64 carry1 s1 21,
  set64 s2 (s2 + carry1),
  set64 s1 (s1 - (carry1 <<< 21)),
  shr64 carry2 s2 21,
  set64 s3 (s3 + carry2),
  set64 s2 (s2 - (carry2 <<< 21)),
  shr64 carry3 s3 21,
  set64 s4 (s4 + carry3),
  set64 s3 (s3 - (carry3 <<< 21)),
  shr64 carry4 s4 21,
  set64 s5 (s5 + carry4),
  set64 s4 (s4 - (carry4 <<< 21)),
  shr64 carry5 s5 21,
  set64 s6 (s6 + carry5),
  set64 s5 (s5 - (carry5 <<< 21)),
  shr64 carry6 s6 21,
  set64 s7 (s7 + carry6),
  set64 s6 (s6 - (carry6 <<< 21)),
  shr64 carry7 s7 21,
  set64 s8 (s8 + carry7),
  set64 s7 (s7 - (carry7 <<< 21)),
  shr64 carry8 s8 21,
  set64 s9 (s9 + carry8),
  set64 s8 (s8 - (carry8 <<< 21)),
  shr64 carry9 s9 21,
  set64 s10 (s10 + carry9),
  set64 s9 (s9 - (carry9 <<< 21)),
  shr64 carry10 s10 21,
  set64 s11 (s11 + carry10),
  set64 s10 (s10 - (carry10 <<< 21))]

end ScMulAdd

namespace ScReduce

/-! Variables of `ScReduce`, crypto/internal/ed25519/edwards25519/edwards25519.go:1936-2252. -/
/-- edwards25519.go:1936-2252 -/ def s0 : Ex := .v 0
/-- edwards25519.go:1936-2252 -/ def s1 : Ex := .v 1
/-- edwards25519.go:1936-2252 -/ def s2 : Ex := .v 2
/-- edwards25519.go:1936-2252 -/ def s3 : Ex := .v 3
/-- edwards25519.go:1936-2252 -/ def s4 : Ex := .v 4
/-- edwards25519.go:1936-2252 -/ def s5 : Ex := .v 5
/-- edwards25519.go:1936-2252 -/ def s6 : Ex := .v 6
/-- edwards25519.go:1936-2252 -/ def s7 : Ex := .v 7
/-- edwards25519.go:1936-2252 -/ def s8 : Ex := .v 8
/-- edwards25519.go:1936-2252 -/ def s9 : Ex := .v 9
/-- edwards25519.go:1936-2252 -/ def s10 : Ex := .v 10
/-- edwards25519.go:1936-2252 -/ def s11 : Ex := .v 11
/-- edwards25519.go:1936-2252 -/ def s12 : Ex := .v 12
/-- edwards25519.go:1936-2252 -/ def s13 : Ex := .v 13
/-- edwards25519.go:1936-2252 -/ def s14 : Ex := .v 14
/-- edwards25519.go:1936-2252 -/ def s15 : Ex := .v 15
/-- edwards25519.go:1936-2252 -/ def s16 : Ex := .v 16
/-- edwards25519.go:1936-2252 -/ def s17 : Ex := .v 17
/-- edwards25519.go:1936-2252 -/ def s18 : Ex := .v 18
/-- edwards25519.go:1936-2252 -/ def s19 : Ex := .v 19
/-- edwards25519.go:1936-2252 -/ def s20 : Ex := .v 20
/-- edwards25519.go:1936-2252 -/ def s21 : Ex := .v 21
/-- edwards25519.go:1936-2252 -/ def s22 : Ex := .v 22
/-- edwards25519.go:1936-2252 -/ def s23 : Ex := .v 23
/-- edwards25519.go:1936-2252 -/ def carry6 : Ex := .v 24
/-- edwards25519.go:1936-2252 -/ def carry8 : Ex := .v 25
/-- edwards25519.go:1936-2252 -/ def carry10 : Ex := .v 26
/-- edwards25519.go:1936-2252 -/ def carry12 : Ex := .v 27
/-- edwards25519.go:1936-2252 -/ def carry14 : Ex := .v 28
/-- edwards25519.go:1936-2252 -/ def carry16 : Ex := .v 29
/-- edwards25519.go:1936-2252 -/ def carry7 : Ex := .v 30
/-- edwards25519.go:1936-2252 -/ def carry9 : Ex := .v 31
/-- edwards25519.go:1936-2252 -/ def carry11 : Ex := .v 32
/-- edwards25519.go:1936-2252 -/ def carry13 : Ex := .v 33
/-- edwards25519.go:1936-2252 -/ def carry15 : Ex := .v 34
/-- edwards25519.go:1936-2252 -/ def carry0 : Ex := .v 35
/-- edwards25519.go:1936-2252 -/ def carry2 : Ex := .v 36
/-- edwards25519.go:1936-2252 -/ def carry4 : Ex := .v 37
/-- edwards25519.go:1936-2252 -/ def carry1 : Ex := .v 38
/-- edwards25519.go:1936-2252 -/ def carry3 : Ex := .v 39
/-- edwards25519.go:1936-2252 -/ def carry5 : Ex := .v 40

/-- crypto/internal/ed25519/edwards25519/edwards25519.go:1962-2140 (`ScReduce`: folding and carries) -/
def fold : List St := [
  set64 s11 (s11 + (s23 * 666643)),
  set64 s12 (s12 + (s23 * 470296)),
  set64 s13 (s13 + (s23 * 654183)),
  set64 s14 (s14 - (s23 * 997805)),
  set64 s15 (s15 + (s23 * 136657)),
  set64 s16 (s16 - (s23 * 683901)),
  set64 s23 0,
  set64 s10 (s10 + (s22 * 666643)),
  set64 s11 (s11 + (s22 * 470296)),
  set64 s12 (s12 + (s22 * 654183)),
  set64 s13 (s13 - (s22 * 997805)),
  set64 s14 (s14 + (s22 * 136657)),
  set64 s15 (s15 - (s22 * 683901)),
  set64 s22 0,
  set64 s9 (s9 + (s21 * 666643)),
  set64 s10 (s10 + (s21 * 470296)),
  set64 s11 (s11 + (s21 * 654183)),
  set64 s12 (s12 - (s21 * 997805)),
  set64 s13 (s13 + (s21 * 136657)),
  set64 s14 (s14 - (s21 * 683901)),
  set64 s21 0,
  set64 s8 (s8 + (s20 * 666643)),
  set64 s9 (s9 + (s20 * 470296)),
  set64 s10 (s10 + (s20 * 654183)),
  set64 s11 (s11 - (s20 * 997805)),
  set64 s12 (s12 + (s20 * 136657)),
  set64 s13 (s13 - (s20 * 683901)),
  set64 s20 0,
  set64 s7 (s7 + (s19 * 666643)),
  set64 s8 (s8 + (s19 * 470296)),
  set64 s9 (s9 + (s19 * 654183)),
  set64 s10 (s10 - (s19 * 997805)),
  set64 s11 (s11 + (s19 * 136657)),
  set64 s12 (s12 - (s19 * 683901)),
  set64 s19 0,
  set64 s6 (s6 + (s18 * 666643)),
  set64 s7 (s7 + (s18 * 470296)),
  set64 s8 (s8 + (s18 * 654183)),
  set64 s9 (s9 - (s18 * 997805)),
  set64 s10 (s10 + (s18 * 136657)),
  set64 s11 (s11 - (s18 * 683901)),
  set64 s18 0,
  shr64 carry6 (s6 + 1048576) 21,
  set64 s7 (s7 + carry6),
  set64 s6 (s6 - (carry6 <<< 21)),
  shr64 carry8 (s8 + 1048576) 21,
  set64 s9 (s9 + carry8),
  set64 s8 (s8 - (carry8 <<< 21)),
  shr64 carry10 (s10 + 1048576) 21,
  set64 s11 (s11 + carry10),
  set64 s10 (s10 - (carry10 <<< 21)),
  shr64 carry12 (s12 + 1048576) 21,
  set64 s13 (s13 + carry12),
  set64 s12 (s12 - (carry12 <<< 21)),
  shr64 carry14 (s14 + 1048576) 21,
  set64 s15 (s15 + carry14),
  set64 s14 (s14 - (carry14 <<< 21)),
  shr64 carry16 (s16 + 1048576) 21,
  set64 s17 (s17 + carry16),
  set64 s16 (s16 - (carry16 <<< 21)),
  shr64 carry7 (s7 + 1048576) 21,
  set64 s8 (s8 + carry7),
  set64 s7 (s7 - (carry7 <<< 21)),
  shr64 carry9 (s9 + 1048576) 21,
  set64 s10 (s10 + carry9),
  set64 s9 (s9 - (carry9 <<< 21)),
  shr64 carry11 (s11 + 1048576) 21,
  set64 s12 (s12 + carry11),
  set64 s11 (s11 - (carry11 <<< 21)),
  shr64 carry13 (s13 + 1048576) 21,
  set64 s14 (s14 + carry13),
  set64 s13 (s13 - (carry13 <<< 21)),
  shr64 carry15 (s15 + 1048576) 21,
  set64 s16 (s16 + carry15),
  set64 s15 (s15 - (carry15 <<< 21)),
  set64 s5 (s5 + (s17 * 666643)),
  set64 s6 (s6 + (s17 * 470296)),
  set64 s7 (s7 + (s17 * 654183)),
  set64 s8 (s8 - (s17 * 997805)),
  set64 s9 (s9 + (s17 * 136657)),
  set64 s10 (s10 - (s17 * 683901)),
  set64 s17 0,
  set64 s4 (s4 + (s16 * 666643)),
  set64 s5 (s5 + (s16 * 470296)),
  set64 s6 (s6 + (s16 * 654183)),
  set64 s7 (s7 - (s16 * 997805)),
  set64 s8 (s8 + (s16 * 136657)),
  set64 s9 (s9 - (s16 * 683901)),
  set64 s16 0,
  set64 s3 (s3 + (s15 * 666643)),
  set64 s4 (s4 + (s15 * 470296)),
  set64 s5 (s5 + (s15 * 654183)),
  set64 s6 (s6 - (s15 * 997805)),
  set64 s7 (s7 + (s15 * 136657)),
  set64 s8 (s8 - (s15 * 683901)),
  set64 s15 0,
  set64 s2 (s2 + (s14 * 666643)),
  set64 s3 (s3 + (s14 * 470296)),
  set64 s4 (s4 + (s14 * 654183)),
  set64 s5 (s5 - (s14 * 997805)),
  set64 s6 (s6 + (s14 * 136657)),
  set64 s7 (s7 - (s14 * 683901)),
  set64 s14 0,
  set64 s1 (s1 + (s13 * 666643)),
  set64 s2 (s2 + (s13 * 470296)),
  set64 s3 (s3 + (s13 * 654183)),
  set64 s4 (s4 - (s13 * 997805)),
  set64 s5 (s5 + (s13 * 136657)),
  set64 s6 (s6 - (s13 * 683901)),
  set64 s13 0,
  set64 s0 (s0 + (s12 * 666643)),
  set64 s1 (s1 + (s12 * 470296)),
  set64 s2 (s2 + (s12 * 654183)),
  set64 s3 (s3 - (s12 * 997805)),
  set64 s4 (s4 + (s12 * 136657)),
  set64 s5 (s5 - (s12 * 683901)),
  set64 s12 0,
  shr64 carry0 (s0 + 1048576) 21,
  set64 s1 (s1 + carry0),
  set64 s0 (s0 - (carry0 <<< 21)),
  shr64 carry2 (s2 + 1048576) 21,
  set64 s3 (s3 + carry2),
  set64 s2 (s2 - (carry2 <<< 21)),
  shr64 carry4 (s4 + 1048576) 21,
  set64 s5 (s5 + carry4),
  set64 s4 (s4 - (carry4 <<< 21)),
  shr64 carry6 (s6 + 1048576) 21,
  set64 s7 (s7 + carry6),
  set64 s6 (s6 - (carry6 <<< 21)),
  shr64 carry8 (s8 + 1048576) 21,
  set64 s9 (s9 + carry8),
  set64 s8 (s8 - (carry8 <<< 21)),
  shr64 carry10 (s10 + 1048576) 21,
  set64 s11 (s11 + carry10),
  set64 s10 (s10 - (carry10 <<< 21)),
  shr64 carry1 (s1 + 1048576) 21,
  set64 s2 (s2 + carry1),
  set64 s1 (s1 - (carry1 <<< 21)),
  shr64 carry3 (s3 + 1048576) 21,
  set64 s4 (s4 + carry3),
  set64 s3 (s3 - (carry3 <<< 21)),
  shr64 carry5 (s5 + 1048576) 21,
  set64 s6 (s6 + carry5),
  set64 s5 (s5 - (carry5 <<< 21)),
  shr64 carry7 (s7 + 1048576) 21,
  set64 s8 (s8 + carry7),
  set64 s7 (s7 - (carry7 <<< 21)),
  shr64 carry9 (s9 + 1048576) 21,
  set64 s10 (s10 + carry9),
  set64 s9 (s9 - (carry9 <<< 21)),
  shr64 carry11 (s11 + 1048576) 21,
  set64 s12 (s12 + carry11),
  set64 s11 (s11 - (carry11 <<< 21)),
  set64 s0 (s0 + (s12 * 666643)),
  set64 s1 (s1 + (s12 * 470296)),
  set64 s2 (s2 + (s12 * 654183)),
  set64 s3 (s3 - (s12 * 997805)),
  set64 s4 (s4 + (s12 * 136657)),
  set64 s5 (s5 - (s12 * 683901)),
  set64 s12 0]

/-- crypto/internal/ed25519/edwards25519/edwards25519.go:2141-2177 (`ScReduce`: the carries rounding down) -/
def floor : List St := [
  shr64 carry0 s0 21,
  set64 s1 (s1 + carry0),
  set64 s0 (s0 - (carry0 <<< 21)),
  shr64 carry1 s1 21,
  set64 s2 (s2 + carry1),
  set64 s1 (s1 - (carry1 <<< 21)),
  shr64 carry2 s2 21,
  set64 s3 (s3 + carry2),
  set64 s2 (s2 - (carry2 <<< 21)),
  shr64 carry3 s3 21,
  set64 s4 (s4 + carry3),
  set64 s3 (s3 - (carry3 <<< 21)),
  shr64 carry4 s4 21,
  set64 s5 (s5 + carry4),
  set64 s4 (s4 - (carry4 <<< 21)),
  shr64 carry5 s5 21,
  set64 s6 (s6 + carry5),
  set64 s5 (s5 - (carry5 <<< 21)),
  shr64 carry6 s6 21,
  set64 s7 (s7 + carry6),
  set64 s6 (s6 - (carry6 <<< 21)),
  shr64 carry7 s7 21,
  set64 s8 (s8 + carry7),
  set64 s7 (s7 - (carry7 <<< 21)),
  shr64 carry8 s8 21,
  set64 s9 (s9 + carry8),
  set64 s8 (s8 - (carry8 <<< 21)),
  shr64 carry9 s9 21,
  set64 s10 (s10 + carry9),
  set64 s9 (s9 - (carry9 <<< 21)),
  shr64 carry10 s10 21,
  set64 s11 (s11 + carry10),
  set64 s10 (s10 - (carry10 <<< 21)),
  shr64 carry11 s11 21,
  set64 s12 (s12 + carry11),
  set64 s11 (s11 - (carry11 <<< 21))]

/-- crypto/internal/ed25519/edwards25519/edwards25519.go:2178-2219 (`ScReduce`: the last folding) -/
def last : List St := [
  set64 s0 (s0 + (s12 * 666643)),
  set64 s1 (s1 + (s12 * 470296)),
  set64 s2 (s2 + (s12 * 654183)),
  set64 s3 (s3 - (s12 * 997805)),
  set64 s4 (s4 + (s12 * 136657)),
  set64 s5 (s5 - (s12 * 683901)),
  set64 s12 0,
  shr64 carry0 s0 21,
  set64 s1 (s1 + carry0),
  set64 s0 (s0 - (carry0 <<< 21)),
  shr64 carry1 s1 21,
  set64 s2 (s2 + carry1),
  set64 s1 (s1 - (carry1 <<< 21)),
  shr64 carry2 s2 21,
  set64 s3 (s3 + carry2),
  set64 s2 (s2 - (carry2 <<< 21)),
  shr64 carry3 s3 21,
  set64 s4 (s4 + carry3),
  set64 s3 (s3 - (carry3 <<< 21)),
  shr64 carry4 s4 21,
  set64 s5 (s5 + carry4),
  set64 s4 (s4 - (carry4 <<< 21)),
  shr64 carry5 s5 21,
  set64 s6 (s6 + carry5),
  set64 s5 (s5 - (carry5 <<< 21)),
  shr64 carry6 s6 21,
  set64 s7 (s7 + carry6),
  set64 s6 (s6 - (carry6 <<< 21)),
  shr64 carry7 s7 21,
  set64 s8 (s8 + carry7),
  set64 s7 (s7 - (carry7 <<< 21)),
  shr64 carry8 s8 21,
  set64 s9 (s9 + carry8),
  set64 s8 (s8 - (carry8 <<< 21)),
  shr64 carry9 s9 21,
  set64 s10 (s10 + carry9),
  set64 s9 (s9 - (carry9 <<< 21)),
  shr64 carry10 s10 21,
  set64 s11 (s11 + carry10),
  set64 s10 (s10 - (carry10 <<< 21))]

end ScReduce

end Coniks.Ed
