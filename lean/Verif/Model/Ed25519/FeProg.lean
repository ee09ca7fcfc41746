import Verif.Model.Ed25519.Word
/-
The field arithmetic of crypto/internal/ed25519/edwards25519/edwards25519.go.

Generated by tools/gen_ed.py: one assignment per statement of the Go source, in the same order. `carryI` is `carry[I]`.
-/
namespace Coniks.Ed

namespace FeFromBytes

/-! Variables of `FeFromBytes`, crypto/internal/ed25519/edwards25519/edwards25519.go:83-138. -/
/-- edwards25519.go:83-138 -/ def h0 : Ex := .v 0
/-- edwards25519.go:83-138 -/ def h1 : Ex := .v 1
/-- edwards25519.go:83-138 -/ def h2 : Ex := .v 2
/-- edwards25519.go:83-138 -/ def h3 : Ex := .v 3
/-- edwards25519.go:83-138 -/ def h4 : Ex := .v 4
/-- edwards25519.go:83-138 -/ def h5 : Ex := .v 5
/-- edwards25519.go:83-138 -/ def h6 : Ex := .v 6
/-- edwards25519.go:83-138 -/ def h7 : Ex := .v 7
/-- edwards25519.go:83-138 -/ def h8 : Ex := .v 8
/-- edwards25519.go:83-138 -/ def h9 : Ex := .v 9
/-- edwards25519.go:83-138 -/ def carry9 : Ex := .v 10
/-- edwards25519.go:83-138 -/ def carry1 : Ex := .v 11
/-- edwards25519.go:83-138 -/ def carry3 : Ex := .v 12
/-- edwards25519.go:83-138 -/ def carry5 : Ex := .v 13
/-- edwards25519.go:83-138 -/ def carry7 : Ex := .v 14
/-- edwards25519.go:83-138 -/ def carry0 : Ex := .v 15
/-- edwards25519.go:83-138 -/ def carry2 : Ex := .v 16
/-- edwards25519.go:83-138 -/ def carry4 : Ex := .v 17
/-- edwards25519.go:83-138 -/ def carry6 : Ex := .v 18
/-- edwards25519.go:83-138 -/ def carry8 : Ex := .v 19
/-- edwards25519.go:83-138 -/ def out0 : Ex := .v 20
/-- edwards25519.go:83-138 -/ def out1 : Ex := .v 21
/-- edwards25519.go:83-138 -/ def out2 : Ex := .v 22
/-- edwards25519.go:83-138 -/ def out3 : Ex := .v 23
/-- edwards25519.go:83-138 -/ def out4 : Ex := .v 24
/-- edwards25519.go:83-138 -/ def out5 : Ex := .v 25
/-- edwards25519.go:83-138 -/ def out6 : Ex := .v 26
/-- edwards25519.go:83-138 -/ def out7 : Ex := .v 27
/-- edwards25519.go:83-138 -/ def out8 : Ex := .v 28
/-- edwards25519.go:83-138 -/ def out9 : Ex := .v 29

/-- crypto/internal/ed25519/edwards25519/edwards25519.go:96-137 (`FeFromBytes`: the carries; the limbs are loaded by `feLoad`) -/
def prog : List St := [
  shr64 carry9 (h9 + 16777216) 25,
  set64 h0 (h0 + (carry9 * 19)),
  set64 h9 (h9 - (carry9 <<< 25)),
  shr64 carry1 (h1 + 16777216) 25,
  set64 h2 (h2 + carry1),
  set64 h1 (h1 - (carry1 <<< 25)),
  shr64 carry3 (h3 + 16777216) 25,
  set64 h4 (h4 + carry3),
  set64 h3 (h3 - (carry3 <<< 25)),
  shr64 carry5 (h5 + 16777216) 25,
  set64 h6 (h6 + carry5),
  set64 h5 (h5 - (carry5 <<< 25)),
  shr64 carry7 (h7 + 16777216) 25,
  set64 h8 (h8 + carry7),
  set64 h7 (h7 - (carry7 <<< 25)),
  shr64 carry0 (h0 + 33554432) 26,
  set64 h1 (h1 + carry0),
  set64 h0 (h0 - (carry0 <<< 26)),
  shr64 carry2 (h2 + 33554432) 26,
  set64 h3 (h3 + carry2),
  set64 h2 (h2 - (carry2 <<< 26)),
  shr64 carry4 (h4 + 33554432) 26,
  set64 h5 (h5 + carry4),
  set64 h4 (h4 - (carry4 <<< 26)),
  shr64 carry6 (h6 + 33554432) 26,
  set64 h7 (h7 + carry6),
  set64 h6 (h6 - (carry6 <<< 26)),
  shr64 carry8 (h8 + 33554432) 26,
  set64 h9 (h9 + carry8),
  set64 h8 (h8 - (carry8 <<< 26)),
  set32 out0 h0,
  set32 out1 h1,
  set32 out2 h2,
  set32 out3 h3,
  set32 out4 h4,
  set32 out5 h5,
  set32 out6 h6,
  set32 out7 h7,
  set32 out8 h8,
  set32 out9 h9]

end FeFromBytes

namespace FeToBytes

/-! Variables of `FeToBytes`, crypto/internal/ed25519/edwards25519/edwards25519.go:163-250. -/
/-- edwards25519.go:163-250 -/ def h0 : Ex := .v 0
/-- edwards25519.go:163-250 -/ def h1 : Ex := .v 1
/-- edwards25519.go:163-250 -/ def h2 : Ex := .v 2
/-- edwards25519.go:163-250 -/ def h3 : Ex := .v 3
/-- edwards25519.go:163-250 -/ def h4 : Ex := .v 4
/-- edwards25519.go:163-250 -/ def h5 : Ex := .v 5
/-- edwards25519.go:163-250 -/ def h6 : Ex := .v 6
/-- edwards25519.go:163-250 -/ def h7 : Ex := .v 7
/-- edwards25519.go:163-250 -/ def h8 : Ex := .v 8
/-- edwards25519.go:163-250 -/ def h9 : Ex := .v 9
/-- edwards25519.go:163-250 -/ def q : Ex := .v 10
/-- edwards25519.go:163-250 -/ def carry0 : Ex := .v 11
/-- edwards25519.go:163-250 -/ def carry1 : Ex := .v 12
/-- edwards25519.go:163-250 -/ def carry2 : Ex := .v 13
/-- edwards25519.go:163-250 -/ def carry3 : Ex := .v 14
/-- edwards25519.go:163-250 -/ def carry4 : Ex := .v 15
/-- edwards25519.go:163-250 -/ def carry5 : Ex := .v 16
/-- edwards25519.go:163-250 -/ def carry6 : Ex := .v 17
/-- edwards25519.go:163-250 -/ def carry7 : Ex := .v 18
/-- edwards25519.go:163-250 -/ def carry8 : Ex := .v 19
/-- edwards25519.go:163-250 -/ def carry9 : Ex := .v 20

/-- crypto/internal/ed25519/edwards25519/edwards25519.go:166-178 (`FeToBytes`: the quotient) -/
def quot : List St := [
  shr32 q ((19 * h9) + 16777216) 25,
  shr32 q (h0 + q) 26,
  shr32 q (h1 + q) 25,
  shr32 q (h2 + q) 26,
  shr32 q (h3 + q) 25,
  shr32 q (h4 + q) 26,
  shr32 q (h5 + q) 25,
  shr32 q (h6 + q) 26,
  shr32 q (h7 + q) 25,
  shr32 q (h8 + q) 26,
  shr32 q (h9 + q) 25]

/-- crypto/internal/ed25519/edwards25519/edwards25519.go:179-217 (`FeToBytes`: the carries) -/
def carries : List St := [
  set32 h0 (h0 + (19 * q)),
  shr32 carry0 h0 26,
  set32 h1 (h1 + carry0),
  set32 h0 (h0 - (carry0 <<< 26)),
  shr32 carry1 h1 25,
  set32 h2 (h2 + carry1),
  set32 h1 (h1 - (carry1 <<< 25)),
  shr32 carry2 h2 26,
  set32 h3 (h3 + carry2),
  set32 h2 (h2 - (carry2 <<< 26)),
  shr32 carry3 h3 25,
  set32 h4 (h4 + carry3),
  set32 h3 (h3 - (carry3 <<< 25)),
  shr32 carry4 h4 26,
  set32 h5 (h5 + carry4),
  set32 h4 (h4 - (carry4 <<< 26)),
  shr32 carry5 h5 25,
  set32 h6 (h6 + carry5),
  set32 h5 (h5 - (carry5 <<< 25)),
  shr32 carry6 h6 26,
  set32 h7 (h7 + carry6),
  set32 h6 (h6 - (carry6 <<< 26)),
  shr32 carry7 h7 25,
  set32 h8 (h8 + carry7),
  set32 h7 (h7 - (carry7 <<< 25)),
  shr32 carry8 h8 26,
  set32 h9 (h9 + carry8),
  set32 h8 (h8 - (carry8 <<< 26)),
  shr32 carry9 h9 25,
  set32 h9 (h9 - (carry9 <<< 25))]

end FeToBytes

namespace FeMul

/-! Variables of `FeMul`, crypto/internal/ed25519/edwards25519/edwards25519.go:311-542. -/
/-- edwards25519.go:311-542 -/ def f0 : Ex := .v 0
/-- edwards25519.go:311-542 -/ def f1 : Ex := .v 1
/-- edwards25519.go:311-542 -/ def f2 : Ex := .v 2
/-- edwards25519.go:311-542 -/ def f3 : Ex := .v 3
/-- edwards25519.go:311-542 -/ def f4 : Ex := .v 4
/-- edwards25519.go:311-542 -/ def f5 : Ex := .v 5
/-- edwards25519.go:311-542 -/ def f6 : Ex := .v 6
/-- edwards25519.go:311-542 -/ def f7 : Ex := .v 7
/-- edwards25519.go:311-542 -/ def f8 : Ex := .v 8
/-- edwards25519.go:311-542 -/ def f9 : Ex := .v 9
/-- edwards25519.go:311-542 -/ def g0 : Ex := .v 10
/-- edwards25519.go:311-542 -/ def g1 : Ex := .v 11
/-- edwards25519.go:311-542 -/ def g2 : Ex := .v 12
/-- edwards25519.go:311-542 -/ def g3 : Ex := .v 13
/-- edwards25519.go:311-542 -/ def g4 : Ex := .v 14
/-- edwards25519.go:311-542 -/ def g5 : Ex := .v 15
/-- edwards25519.go:311-542 -/ def g6 : Ex := .v 16
/-- edwards25519.go:311-542 -/ def g7 : Ex := .v 17
/-- edwards25519.go:311-542 -/ def g8 : Ex := .v 18
/-- edwards25519.go:311-542 -/ def g9 : Ex := .v 19
/-- edwards25519.go:311-542 -/ def g1_19 : Ex := .v 20
/-- edwards25519.go:311-542 -/ def g2_19 : Ex := .v 21
/-- edwards25519.go:311-542 -/ def g3_19 : Ex := .v 22
/-- edwards25519.go:311-542 -/ def g4_19 : Ex := .v 23
/-- edwards25519.go:311-542 -/ def g5_19 : Ex := .v 24
/-- edwards25519.go:311-542 -/ def g6_19 : Ex := .v 25
/-- edwards25519.go:311-542 -/ def g7_19 : Ex := .v 26
/-- edwards25519.go:311-542 -/ def g8_19 : Ex := .v 27
/-- edwards25519.go:311-542 -/ def g9_19 : Ex := .v 28
/-- edwards25519.go:311-542 -/ def f1_2 : Ex := .v 29
/-- edwards25519.go:311-542 -/ def f3_2 : Ex := .v 30
/-- edwards25519.go:311-542 -/ def f5_2 : Ex := .v 31
/-- edwards25519.go:311-542 -/ def f7_2 : Ex := .v 32
/-- edwards25519.go:311-542 -/ def f9_2 : Ex := .v 33
/-- edwards25519.go:311-542 -/ def f0g0 : Ex := .v 34
/-- edwards25519.go:311-542 -/ def f0g1 : Ex := .v 35
/-- edwards25519.go:311-542 -/ def f0g2 : Ex := .v 36
/-- edwards25519.go:311-542 -/ def f0g3 : Ex := .v 37
/-- edwards25519.go:311-542 -/ def f0g4 : Ex := .v 38
/-- edwards25519.go:311-542 -/ def f0g5 : Ex := .v 39
/-- edwards25519.go:311-542 -/ def f0g6 : Ex := .v 40
/-- edwards25519.go:311-542 -/ def f0g7 : Ex := .v 41
/-- edwards25519.go:311-542 -/ def f0g8 : Ex := .v 42
/-- edwards25519.go:311-542 -/ def f0g9 : Ex := .v 43
/-- edwards25519.go:311-542 -/ def f1g0 : Ex := .v 44
/-- edwards25519.go:311-542 -/ def f1g1_2 : Ex := .v 45
/-- edwards25519.go:311-542 -/ def f1g2 : Ex := .v 46
/-- edwards25519.go:311-542 -/ def f1g3_2 : Ex := .v 47
/-- edwards25519.go:311-542 -/ def f1g4 : Ex := .v 48
/-- edwards25519.go:311-542 -/ def f1g5_2 : Ex := .v 49
/-- edwards25519.go:311-542 -/ def f1g6 : Ex := .v 50
/-- edwards25519.go:311-542 -/ def f1g7_2 : Ex := .v 51
/-- edwards25519.go:311-542 -/ def f1g8 : Ex := .v 52
/-- edwards25519.go:311-542 -/ def f1g9_38 : Ex := .v 53
/-- edwards25519.go:311-542 -/ def f2g0 : Ex := .v 54
/-- edwards25519.go:311-542 -/ def f2g1 : Ex := .v 55
/-- edwards25519.go:311-542 -/ def f2g2 : Ex := .v 56
/-- edwards25519.go:311-542 -/ def f2g3 : Ex := .v 57
/-- edwards25519.go:311-542 -/ def f2g4 : Ex := .v 58
/-- edwards25519.go:311-542 -/ def f2g5 : Ex := .v 59
/-- edwards25519.go:311-542 -/ def f2g6 : Ex := .v 60
/-- edwards25519.go:311-542 -/ def f2g7 : Ex := .v 61
/-- edwards25519.go:311-542 -/ def f2g8_19 : Ex := .v 62
/-- edwards25519.go:311-542 -/ def f2g9_19 : Ex := .v 63
/-- edwards25519.go:311-542 -/ def f3g0 : Ex := .v 64
/-- edwards25519.go:311-542 -/ def f3g1_2 : Ex := .v 65
/-- edwards25519.go:311-542 -/ def f3g2 : Ex := .v 66
/-- edwards25519.go:311-542 -/ def f3g3_2 : Ex := .v 67
/-- edwards25519.go:311-542 -/ def f3g4 : Ex := .v 68
/-- edwards25519.go:311-542 -/ def f3g5_2 : Ex := .v 69
/-- edwards25519.go:311-542 -/ def f3g6 : Ex := .v 70
/-- edwards25519.go:311-542 -/ def f3g7_38 : Ex := .v 71
/-- edwards25519.go:311-542 -/ def f3g8_19 : Ex := .v 72
/-- edwards25519.go:311-542 -/ def f3g9_38 : Ex := .v 73
/-- edwards25519.go:311-542 -/ def f4g0 : Ex := .v 74
/-- edwards25519.go:311-542 -/ def f4g1 : Ex := .v 75
/-- edwards25519.go:311-542 -/ def f4g2 : Ex := .v 76
/-- edwards25519.go:311-542 -/ def f4g3 : Ex := .v 77
/-- edwards25519.go:311-542 -/ def f4g4 : Ex := .v 78
/-- edwards25519.go:311-542 -/ def f4g5 : Ex := .v 79
/-- edwards25519.go:311-542 -/ def f4g6_19 : Ex := .v 80
/-- edwards25519.go:311-542 -/ def f4g7_19 : Ex := .v 81
/-- edwards25519.go:311-542 -/ def f4g8_19 : Ex := .v 82
/-- edwards25519.go:311-542 -/ def f4g9_19 : Ex := .v 83
/-- edwards25519.go:311-542 -/ def f5g0 : Ex := .v 84
/-- edwards25519.go:311-542 -/ def f5g1_2 : Ex := .v 85
/-- edwards25519.go:311-542 -/ def f5g2 : Ex := .v 86
/-- edwards25519.go:311-542 -/ def f5g3_2 : Ex := .v 87
/-- edwards25519.go:311-542 -/ def f5g4 : Ex := .v 88
/-- edwards25519.go:311-542 -/ def f5g5_38 : Ex := .v 89
/-- edwards25519.go:311-542 -/ def f5g6_19 : Ex := .v 90
/-- edwards25519.go:311-542 -/ def f5g7_38 : Ex := .v 91
/-- edwards25519.go:311-542 -/ def f5g8_19 : Ex := .v 92
/-- edwards25519.go:311-542 -/ def f5g9_38 : Ex := .v 93
/-- edwards25519.go:311-542 -/ def f6g0 : Ex := .v 94
/-- edwards25519.go:311-542 -/ def f6g1 : Ex := .v 95
/-- edwards25519.go:311-542 -/ def f6g2 : Ex := .v 96
/-- edwards25519.go:311-542 -/ def f6g3 : Ex := .v 97
/-- edwards25519.go:311-542 -/ def f6g4_19 : Ex := .v 98
/-- edwards25519.go:311-542 -/ def f6g5_19 : Ex := .v 99
/-- edwards25519.go:311-542 -/ def f6g6_19 : Ex := .v 100
/-- edwards25519.go:311-542 -/ def f6g7_19 : Ex := .v 101
/-- edwards25519.go:311-542 -/ def f6g8_19 : Ex := .v 102
/-- edwards25519.go:311-542 -/ def f6g9_19 : Ex := .v 103
/-- edwards25519.go:311-542 -/ def f7g0 : Ex := .v 104
/-- edwards25519.go:311-542 -/ def f7g1_2 : Ex := .v 105
/-- edwards25519.go:311-542 -/ def f7g2 : Ex := .v 106
/-- edwards25519.go:311-542 -/ def f7g3_38 : Ex := .v 107
/-- edwards25519.go:311-542 -/ def f7g4_19 : Ex := .v 108
/-- edwards25519.go:311-542 -/ def f7g5_38 : Ex := .v 109
/-- edwards25519.go:311-542 -/ def f7g6_19 : Ex := .v 110
/-- edwards25519.go:311-542 -/ def f7g7_38 : Ex := .v 111
/-- edwards25519.go:311-542 -/ def f7g8_19 : Ex := .v 112
/-- edwards25519.go:311-542 -/ def f7g9_38 : Ex := .v 113
/-- edwards25519.go:311-542 -/ def f8g0 : Ex := .v 114
/-- edwards25519.go:311-542 -/ def f8g1 : Ex := .v 115
/-- edwards25519.go:311-542 -/ def f8g2_19 : Ex := .v 116
/-- edwards25519.go:311-542 -/ def f8g3_19 : Ex := .v 117
/-- edwards25519.go:311-542 -/ def f8g4_19 : Ex := .v 118
/-- edwards25519.go:311-542 -/ def f8g5_19 : Ex := .v 119
/-- edwards25519.go:311-542 -/ def f8g6_19 : Ex := .v 120
/-- edwards25519.go:311-542 -/ def f8g7_19 : Ex := .v 121
/-- edwards25519.go:311-542 -/ def f8g8_19 : Ex := .v 122
/-- edwards25519.go:311-542 -/ def f8g9_19 : Ex := .v 123
/-- edwards25519.go:311-542 -/ def f9g0 : Ex := .v 124
/-- edwards25519.go:311-542 -/ def f9g1_38 : Ex := .v 125
/-- edwards25519.go:311-542 -/ def f9g2_19 : Ex := .v 126
/-- edwards25519.go:311-542 -/ def f9g3_38 : Ex := .v 127
/-- edwards25519.go:311-542 -/ def f9g4_19 : Ex := .v 128
/-- edwards25519.go:311-542 -/ def f9g5_38 : Ex := .v 129
/-- edwards25519.go:311-542 -/ def f9g6_19 : Ex := .v 130
/-- edwards25519.go:311-542 -/ def f9g7_38 : Ex := .v 131
/-- edwards25519.go:311-542 -/ def f9g8_19 : Ex := .v 132
/-- edwards25519.go:311-542 -/ def f9g9_38 : Ex := .v 133
/-- edwards25519.go:311-542 -/ def h0 : Ex := .v 134
/-- edwards25519.go:311-542 -/ def h1 : Ex := .v 135
/-- edwards25519.go:311-542 -/ def h2 : Ex := .v 136
/-- edwards25519.go:311-542 -/ def h3 : Ex := .v 137
/-- edwards25519.go:311-542 -/ def h4 : Ex := .v 138
/-- edwards25519.go:311-542 -/ def h5 : Ex := .v 139
/-- edwards25519.go:311-542 -/ def h6 : Ex := .v 140
/-- edwards25519.go:311-542 -/ def h7 : Ex := .v 141
/-- edwards25519.go:311-542 -/ def h8 : Ex := .v 142
/-- edwards25519.go:311-542 -/ def h9 : Ex := .v 143
/-- edwards25519.go:311-542 -/ def carry0 : Ex := .v 144
/-- edwards25519.go:311-542 -/ def carry4 : Ex := .v 145
/-- edwards25519.go:311-542 -/ def carry1 : Ex := .v 146
/-- edwards25519.go:311-542 -/ def carry5 : Ex := .v 147
/-- edwards25519.go:311-542 -/ def carry2 : Ex := .v 148
/-- edwards25519.go:311-542 -/ def carry6 : Ex := .v 149
/-- edwards25519.go:311-542 -/ def carry3 : Ex := .v 150
/-- edwards25519.go:311-542 -/ def carry7 : Ex := .v 151
/-- edwards25519.go:311-542 -/ def carry8 : Ex := .v 152
/-- edwards25519.go:311-542 -/ def carry9 : Ex := .v 153
/-- edwards25519.go:311-542 -/ def out0 : Ex := .v 154
/-- edwards25519.go:311-542 -/ def out1 : Ex := .v 155
/-- edwards25519.go:311-542 -/ def out2 : Ex := .v 156
/-- edwards25519.go:311-542 -/ def out3 : Ex := .v 157
/-- edwards25519.go:311-542 -/ def out4 : Ex := .v 158
/-- edwards25519.go:311-542 -/ def out5 : Ex := .v 159
/-- edwards25519.go:311-542 -/ def out6 : Ex := .v 160
/-- edwards25519.go:311-542 -/ def out7 : Ex := .v 161
/-- edwards25519.go:311-542 -/ def out8 : Ex := .v 162
/-- edwards25519.go:311-542 -/ def out9 : Ex := .v 163

/-- crypto/internal/ed25519/edwards25519/edwards25519.go:332-541 (`FeMul`) -/
def prog : List St := [
  set32 g1_19 (19 * g1),
  set32 g2_19 (19 * g2),
  set32 g3_19 (19 * g3),
  set32 g4_19 (19 * g4),
  set32 g5_19 (19 * g5),
  set32 g6_19 (19 * g6),
  set32 g7_19 (19 * g7),
  set32 g8_19 (19 * g8),
  set32 g9_19 (19 * g9),
  set32 f1_2 (2 * f1),
  set32 f3_2 (2 * f3),
  set32 f5_2 (2 * f5),
  set32 f7_2 (2 * f7),
  set32 f9_2 (2 * f9),
  set64 f0g0 (f0 * g0),
  set64 f0g1 (f0 * g1),
  set64 f0g2 (f0 * g2),
  set64 f0g3 (f0 * g3),
  set64 f0g4 (f0 * g4),
  set64 f0g5 (f0 * g5),
  set64 f0g6 (f0 * g6),
  set64 f0g7 (f0 * g7),
  set64 f0g8 (f0 * g8),
  set64 f0g9 (f0 * g9),
  set64 f1g0 (f1 * g0),
  set64 f1g1_2 (f1_2 * g1),
  set64 f1g2 (f1 * g2),
  set64 f1g3_2 (f1_2 * g3),
  set64 f1g4 (f1 * g4),
  set64 f1g5_2 (f1_2 * g5),
  set64 f1g6 (f1 * g6),
  set64 f1g7_2 (f1_2 * g7),
  set64 f1g8 (f1 * g8),
  set64 f1g9_38 (f1_2 * g9_19),
  set64 f2g0 (f2 * g0),
  set64 f2g1 (f2 * g1),
  set64 f2g2 (f2 * g2),
  set64 f2g3 (f2 * g3),
  set64 f2g4 (f2 * g4),
  set64 f2g5 (f2 * g5),
  set64 f2g6 (f2 * g6),
  set64 f2g7 (f2 * g7),
  set64 f2g8_19 (f2 * g8_19),
  set64 f2g9_19 (f2 * g9_19),
  set64 f3g0 (f3 * g0),
  set64 f3g1_2 (f3_2 * g1),
  set64 f3g2 (f3 * g2),
  set64 f3g3_2 (f3_2 * g3),
  set64 f3g4 (f3 * g4),
  set64 f3g5_2 (f3_2 * g5),
  set64 f3g6 (f3 * g6),
  set64 f3g7_38 (f3_2 * g7_19),
  set64 f3g8_19 (f3 * g8_19),
  set64 f3g9_38 (f3_2 * g9_19),
  set64 f4g0 (f4 * g0),
  set64 f4g1 (f4 * g1),
  set64 f4g2 (f4 * g2),
  set64 f4g3 (f4 * g3),
  set64 f4g4 (f4 * g4),
  set64 f4g5 (f4 * g5),
  set64 f4g6_19 (f4 * g6_19),
  set64 f4g7_19 (f4 * g7_19),
  set64 f4g8_19 (f4 * g8_19),
  set64 f4g9_19 (f4 * g9_19),
  set64 f5g0 (f5 * g0),
  set64 f5g1_2 (f5_2 * g1),
  set64 f5g2 (f5 * g2),
  set64 f5g3_2 (f5_2 * g3),
  set64 f5g4 (f5 * g4),
  set64 f5g5_38 (f5_2 * g5_19),
  set64 f5g6_19 (f5 * g6_19),
  set64 f5g7_38 (f5_2 * g7_19),
  set64 f5g8_19 (f5 * g8_19),
  set64 f5g9_38 (f5_2 * g9_19),
  set64 f6g0 (f6 * g0),
  set64 f6g1 (f6 * g1),
  set64 f6g2 (f6 * g2),
  set64 f6g3 (f6 * g3),
  set64 f6g4_19 (f6 * g4_19),
  set64 f6g5_19 (f6 * g5_19),
  set64 f6g6_19 (f6 * g6_19),
  set64 f6g7_19 (f6 * g7_19),
  set64 f6g8_19 (f6 * g8_19),
  set64 f6g9_19 (f6 * g9_19),
  set64 f7g0 (f7 * g0),
  set64 f7g1_2 (f7_2 * g1),
  set64 f7g2 (f7 * g2),
  set64 f7g3_38 (f7_2 * g3_19),
  set64 f7g4_19 (f7 * g4_19),
  set64 f7g5_38 (f7_2 * g5_19),
  set64 f7g6_19 (f7 * g6_19),
  set64 f7g7_38 (f7_2 * g7_19),
  set64 f7g8_19 (f7 * g8_19),
  set64 f7g9_38 (f7_2 * g9_19),
  set64 f8g0 (f8 * g0),
  set64 f8g1 (f8 * g1),
  set64 f8g2_19 (f8 * g2_19),
  set64 f8g3_19 (f8 * g3_19),
  set64 f8g4_19 (f8 * g4_19),
  set64 f8g5_19 (f8 * g5_19),
  set64 f8g6_19 (f8 * g6_19),
  set64 f8g7_19 (f8 * g7_19),
  set64 f8g8_19 (f8 * g8_19),
  set64 f8g9_19 (f8 * g9_19),
  set64 f9g0 (f9 * g0),
  set64 f9g1_38 (f9_2 * g1_19),
  set64 f9g2_19 (f9 * g2_19),
  set64 f9g3_38 (f9_2 * g3_19),
  set64 f9g4_19 (f9 * g4_19),
  set64 f9g5_38 (f9_2 * g5_19),
  set64 f9g6_19 (f9 * g6_19),
  set64 f9g7_38 (f9_2 * g7_19),
  set64 f9g8_19 (f9 * g8_19),
  set64 f9g9_38 (f9_2 * g9_19),
  set64 h0 (f0g0 + f1g9_38 + f2g8_19 + f3g7_38 + f4g6_19 + f5g5_38 + f6g4_19 + f7g3_38 + f8g2_19 + f9g1_38),
  set64 h1 (f0g1 + f1g0 + f2g9_19 + f3g8_19 + f4g7_19 + f5g6_19 + f6g5_19 + f7g4_19 + f8g3_19 + f9g2_19),
  set64 h2 (f0g2 + f1g1_2 + f2g0 + f3g9_38 + f4g8_19 + f5g7_38 + f6g6_19 + f7g5_38 + f8g4_19 + f9g3_38),
  set64 h3 (f0g3 + f1g2 + f2g1 + f3g0 + f4g9_19 + f5g8_19 + f6g7_19 + f7g6_19 + f8g5_19 + f9g4_19),
  set64 h4 (f0g4 + f1g3_2 + f2g2 + f3g1_2 + f4g0 + f5g9_38 + f6g8_19 + f7g7_38 + f8g6_19 + f9g5_38),
  set64 h5 (f0g5 + f1g4 + f2g3 + f3g2 + f4g1 + f5g0 + f6g9_19 + f7g8_19 + f8g7_19 + f9g6_19),
  set64 h6 (f0g6 + f1g5_2 + f2g4 + f3g3_2 + f4g2 + f5g1_2 + f6g0 + f7g9_38 + f8g8_19 + f9g7_38),
  set64 h7 (f0g7 + f1g6 + f2g5 + f3g4 + f4g3 + f5g2 + f6g1 + f7g0 + f8g9_19 + f9g8_19),
  set64 h8 (f0g8 + f1g7_2 + f2g6 + f3g5_2 + f4g4 + f5g3_2 + f6g2 + f7g1_2 + f8g0 + f9g9_38),
  set64 h9 (f0g9 + f1g8 + f2g7 + f3g6 + f4g5 + f5g4 + f6g3 + f7g2 + f8g1 + f9g0),
  shr64 carry0 (h0 + 33554432) 26,
  set64 h1 (h1 + carry0),
  set64 h0 (h0 - (carry0 <<< 26)),
  shr64 carry4 (h4 + 33554432) 26,
  set64 h5 (h5 + carry4),
  set64 h4 (h4 - (carry4 <<< 26)),
  shr64 carry1 (h1 + 16777216) 25,
  set64 h2 (h2 + carry1),
  set64 h1 (h1 - (carry1 <<< 25)),
  shr64 carry5 (h5 + 16777216) 25,
  set64 h6 (h6 + carry5),
  set64 h5 (h5 - (carry5 <<< 25)),
  shr64 carry2 (h2 + 33554432) 26,
  set64 h3 (h3 + carry2),
  set64 h2 (h2 - (carry2 <<< 26)),
  shr64 carry6 (h6 + 33554432) 26,
  set64 h7 (h7 + carry6),
  set64 h6 (h6 - (carry6 <<< 26)),
  shr64 carry3 (h3 + 16777216) 25,
  set64 h4 (h4 + carry3),
  set64 h3 (h3 - (carry3 <<< 25)),
  shr64 carry7 (h7 + 16777216) 25,
  set64 h8 (h8 + carry7),
  set64 h7 (h7 - (carry7 <<< 25)),
  shr64 carry4 (h4 + 33554432) 26,
  set64 h5 (h5 + carry4),
  set64 h4 (h4 - (carry4 <<< 26)),
  shr64 carry8 (h8 + 33554432) 26,
  set64 h9 (h9 + carry8),
  set64 h8 (h8 - (carry8 <<< 26)),
  shr64 carry9 (h9 + 16777216) 25,
  set64 h0 (h0 + (carry9 * 19)),
  set64 h9 (h9 - (carry9 <<< 25)),
  shr64 carry0 (h0 + 33554432) 26,
  set64 h1 (h1 + carry0),
  set64 h0 (h0 - (carry0 <<< 26)),
  set32 out0 h0,
  set32 out1 h1,
  set32 out2 h2,
  set32 out3 h3,
  set32 out4 h4,
  set32 out5 h5,
  set32 out6 h6,
  set32 out7 h7,
  set32 out8 h8,
  set32 out9 h9]

end FeMul

namespace FeSquare

/-! Variables of `FeSquare`, crypto/internal/ed25519/edwards25519/edwards25519.go:551-695. -/
/-- edwards25519.go:551-695 -/ def f0 : Ex := .v 0
/-- edwards25519.go:551-695 -/ def f1 : Ex := .v 1
/-- edwards25519.go:551-695 -/ def f2 : Ex := .v 2
/-- edwards25519.go:551-695 -/ def f3 : Ex := .v 3
/-- edwards25519.go:551-695 -/ def f4 : Ex := .v 4
/-- edwards25519.go:551-695 -/ def f5 : Ex := .v 5
/-- edwards25519.go:551-695 -/ def f6 : Ex := .v 6
/-- edwards25519.go:551-695 -/ def f7 : Ex := .v 7
/-- edwards25519.go:551-695 -/ def f8 : Ex := .v 8
/-- edwards25519.go:551-695 -/ def f9 : Ex := .v 9
/-- edwards25519.go:551-695 -/ def f0_2 : Ex := .v 10
/-- edwards25519.go:551-695 -/ def f1_2 : Ex := .v 11
/-- edwards25519.go:551-695 -/ def f2_2 : Ex := .v 12
/-- edwards25519.go:551-695 -/ def f3_2 : Ex := .v 13
/-- edwards25519.go:551-695 -/ def f4_2 : Ex := .v 14
/-- edwards25519.go:551-695 -/ def f5_2 : Ex := .v 15
/-- edwards25519.go:551-695 -/ def f6_2 : Ex := .v 16
/-- edwards25519.go:551-695 -/ def f7_2 : Ex := .v 17
/-- edwards25519.go:551-695 -/ def f5_38 : Ex := .v 18
/-- edwards25519.go:551-695 -/ def f6_19 : Ex := .v 19
/-- edwards25519.go:551-695 -/ def f7_38 : Ex := .v 20
/-- edwards25519.go:551-695 -/ def f8_19 : Ex := .v 21
/-- edwards25519.go:551-695 -/ def f9_38 : Ex := .v 22
/-- edwards25519.go:551-695 -/ def f0f0 : Ex := .v 23
/-- edwards25519.go:551-695 -/ def f0f1_2 : Ex := .v 24
/-- edwards25519.go:551-695 -/ def f0f2_2 : Ex := .v 25
/-- edwards25519.go:551-695 -/ def f0f3_2 : Ex := .v 26
/-- edwards25519.go:551-695 -/ def f0f4_2 : Ex := .v 27
/-- edwards25519.go:551-695 -/ def f0f5_2 : Ex := .v 28
/-- edwards25519.go:551-695 -/ def f0f6_2 : Ex := .v 29
/-- edwards25519.go:551-695 -/ def f0f7_2 : Ex := .v 30
/-- edwards25519.go:551-695 -/ def f0f8_2 : Ex := .v 31
/-- edwards25519.go:551-695 -/ def f0f9_2 : Ex := .v 32
/-- edwards25519.go:551-695 -/ def f1f1_2 : Ex := .v 33
/-- edwards25519.go:551-695 -/ def f1f2_2 : Ex := .v 34
/-- edwards25519.go:551-695 -/ def f1f3_4 : Ex := .v 35
/-- edwards25519.go:551-695 -/ def f1f4_2 : Ex := .v 36
/-- edwards25519.go:551-695 -/ def f1f5_4 : Ex := .v 37
/-- edwards25519.go:551-695 -/ def f1f6_2 : Ex := .v 38
/-- edwards25519.go:551-695 -/ def f1f7_4 : Ex := .v 39
/-- edwards25519.go:551-695 -/ def f1f8_2 : Ex := .v 40
/-- edwards25519.go:551-695 -/ def f1f9_76 : Ex := .v 41
/-- edwards25519.go:551-695 -/ def f2f2 : Ex := .v 42
/-- edwards25519.go:551-695 -/ def f2f3_2 : Ex := .v 43
/-- edwards25519.go:551-695 -/ def f2f4_2 : Ex := .v 44
/-- edwards25519.go:551-695 -/ def f2f5_2 : Ex := .v 45
/-- edwards25519.go:551-695 -/ def f2f6_2 : Ex := .v 46
/-- edwards25519.go:551-695 -/ def f2f7_2 : Ex := .v 47
/-- edwards25519.go:551-695 -/ def f2f8_38 : Ex := .v 48
/-- edwards25519.go:551-695 -/ def f2f9_38 : Ex := .v 49
/-- edwards25519.go:551-695 -/ def f3f3_2 : Ex := .v 50
/-- edwards25519.go:551-695 -/ def f3f4_2 : Ex := .v 51
/-- edwards25519.go:551-695 -/ def f3f5_4 : Ex := .v 52
/-- edwards25519.go:551-695 -/ def f3f6_2 : Ex := .v 53
/-- edwards25519.go:551-695 -/ def f3f7_76 : Ex := .v 54
/-- edwards25519.go:551-695 -/ def f3f8_38 : Ex := .v 55
/-- edwards25519.go:551-695 -/ def f3f9_76 : Ex := .v 56
/-- edwards25519.go:551-695 -/ def f4f4 : Ex := .v 57
/-- edwards25519.go:551-695 -/ def f4f5_2 : Ex := .v 58
/-- edwards25519.go:551-695 -/ def f4f6_38 : Ex := .v 59
/-- edwards25519.go:551-695 -/ def f4f7_38 : Ex := .v 60
/-- edwards25519.go:551-695 -/ def f4f8_38 : Ex := .v 61
/-- edwards25519.go:551-695 -/ def f4f9_38 : Ex := .v 62
/-- edwards25519.go:551-695 -/ def f5f5_38 : Ex := .v 63
/-- edwards25519.go:551-695 -/ def f5f6_38 : Ex := .v 64
/-- edwards25519.go:551-695 -/ def f5f7_76 : Ex := .v 65
/-- edwards25519.go:551-695 -/ def f5f8_38 : Ex := .v 66
/-- edwards25519.go:551-695 -/ def f5f9_76 : Ex := .v 67
/-- edwards25519.go:551-695 -/ def f6f6_19 : Ex := .v 68
/-- edwards25519.go:551-695 -/ def f6f7_38 : Ex := .v 69
/-- edwards25519.go:551-695 -/ def f6f8_38 : Ex := .v 70
/-- edwards25519.go:551-695 -/ def f6f9_38 : Ex := .v 71
/-- edwards25519.go:551-695 -/ def f7f7_38 : Ex := .v 72
/-- edwards25519.go:551-695 -/ def f7f8_38 : Ex := .v 73
/-- edwards25519.go:551-695 -/ def f7f9_76 : Ex := .v 74
/-- edwards25519.go:551-695 -/ def f8f8_19 : Ex := .v 75
/-- edwards25519.go:551-695 -/ def f8f9_38 : Ex := .v 76
/-- edwards25519.go:551-695 -/ def f9f9_38 : Ex := .v 77
/-- edwards25519.go:551-695 -/ def h0 : Ex := .v 78
/-- edwards25519.go:551-695 -/ def h1 : Ex := .v 79
/-- edwards25519.go:551-695 -/ def h2 : Ex := .v 80
/-- edwards25519.go:551-695 -/ def h3 : Ex := .v 81
/-- edwards25519.go:551-695 -/ def h4 : Ex := .v 82
/-- edwards25519.go:551-695 -/ def h5 : Ex := .v 83
/-- edwards25519.go:551-695 -/ def h6 : Ex := .v 84
/-- edwards25519.go:551-695 -/ def h7 : Ex := .v 85
/-- edwards25519.go:551-695 -/ def h8 : Ex := .v 86
/-- edwards25519.go:551-695 -/ def h9 : Ex := .v 87
/-- edwards25519.go:551-695 -/ def carry0 : Ex := .v 88
/-- edwards25519.go:551-695 -/ def carry4 : Ex := .v 89
/-- edwards25519.go:551-695 -/ def carry1 : Ex := .v 90
/-- edwards25519.go:551-695 -/ def carry5 : Ex := .v 91
/-- edwards25519.go:551-695 -/ def carry2 : Ex := .v 92
/-- edwards25519.go:551-695 -/ def carry6 : Ex := .v 93
/-- edwards25519.go:551-695 -/ def carry3 : Ex := .v 94
/-- edwards25519.go:551-695 -/ def carry7 : Ex := .v 95
/-- edwards25519.go:551-695 -/ def carry8 : Ex := .v 96
/-- edwards25519.go:551-695 -/ def carry9 : Ex := .v 97
/-- edwards25519.go:551-695 -/ def out0 : Ex := .v 98
/-- edwards25519.go:551-695 -/ def out1 : Ex := .v 99
/-- edwards25519.go:551-695 -/ def out2 : Ex := .v 100
/-- edwards25519.go:551-695 -/ def out3 : Ex := .v 101
/-- edwards25519.go:551-695 -/ def out4 : Ex := .v 102
/-- edwards25519.go:551-695 -/ def out5 : Ex := .v 103
/-- edwards25519.go:551-695 -/ def out6 : Ex := .v 104
/-- edwards25519.go:551-695 -/ def out7 : Ex := .v 105
/-- edwards25519.go:551-695 -/ def out8 : Ex := .v 106
/-- edwards25519.go:551-695 -/ def out9 : Ex := .v 107

/-- crypto/internal/ed25519/edwards25519/edwards25519.go:562-694 (`FeSquare`) -/
def prog : List St := [
  set32 f0_2 (2 * f0),
  set32 f1_2 (2 * f1),
  set32 f2_2 (2 * f2),
  set32 f3_2 (2 * f3),
  set32 f4_2 (2 * f4),
  set32 f5_2 (2 * f5),
  set32 f6_2 (2 * f6),
  set32 f7_2 (2 * f7),
  set32 f5_38 (38 * f5),
  set32 f6_19 (19 * f6),
  set32 f7_38 (38 * f7),
  set32 f8_19 (19 * f8),
  set32 f9_38 (38 * f9),
  set64 f0f0 (f0 * f0),
  set64 f0f1_2 (f0_2 * f1),
  set64 f0f2_2 (f0_2 * f2),
  set64 f0f3_2 (f0_2 * f3),
  set64 f0f4_2 (f0_2 * f4),
  set64 f0f5_2 (f0_2 * f5),
  set64 f0f6_2 (f0_2 * f6),
  set64 f0f7_2 (f0_2 * f7),
  set64 f0f8_2 (f0_2 * f8),
  set64 f0f9_2 (f0_2 * f9),
  set64 f1f1_2 (f1_2 * f1),
  set64 f1f2_2 (f1_2 * f2),
  set64 f1f3_4 (f1_2 * f3_2),
  set64 f1f4_2 (f1_2 * f4),
  set64 f1f5_4 (f1_2 * f5_2),
  set64 f1f6_2 (f1_2 * f6),
  set64 f1f7_4 (f1_2 * f7_2),
  set64 f1f8_2 (f1_2 * f8),
  set64 f1f9_76 (f1_2 * f9_38),
  set64 f2f2 (f2 * f2),
  set64 f2f3_2 (f2_2 * f3),
  set64 f2f4_2 (f2_2 * f4),
  set64 f2f5_2 (f2_2 * f5),
  set64 f2f6_2 (f2_2 * f6),
  set64 f2f7_2 (f2_2 * f7),
  set64 f2f8_38 (f2_2 * f8_19),
  set64 f2f9_38 (f2 * f9_38),
  set64 f3f3_2 (f3_2 * f3),
  set64 f3f4_2 (f3_2 * f4),
  set64 f3f5_4 (f3_2 * f5_2),
  set64 f3f6_2 (f3_2 * f6),
  set64 f3f7_76 (f3_2 * f7_38),
  set64 f3f8_38 (f3_2 * f8_19),
  set64 f3f9_76 (f3_2 * f9_38),
  set64 f4f4 (f4 * f4),
  set64 f4f5_2 (f4_2 * f5),
  set64 f4f6_38 (f4_2 * f6_19),
  set64 f4f7_38 (f4 * f7_38),
  set64 f4f8_38 (f4_2 * f8_19),
  set64 f4f9_38 (f4 * f9_38),
  set64 f5f5_38 (f5 * f5_38),
  set64 f5f6_38 (f5_2 * f6_19),
  set64 f5f7_76 (f5_2 * f7_38),
  set64 f5f8_38 (f5_2 * f8_19),
  set64 f5f9_76 (f5_2 * f9_38),
  set64 f6f6_19 (f6 * f6_19),
  set64 f6f7_38 (f6 * f7_38),
  set64 f6f8_38 (f6_2 * f8_19),
  set64 f6f9_38 (f6 * f9_38),
  set64 f7f7_38 (f7 * f7_38),
  set64 f7f8_38 (f7_2 * f8_19),
  set64 f7f9_76 (f7_2 * f9_38),
  set64 f8f8_19 (f8 * f8_19),
  set64 f8f9_38 (f8 * f9_38),
  set64 f9f9_38 (f9 * f9_38),
  set64 h0 (f0f0 + f1f9_76 + f2f8_38 + f3f7_76 + f4f6_38 + f5f5_38),
  set64 h1 (f0f1_2 + f2f9_38 + f3f8_38 + f4f7_38 + f5f6_38),
  set64 h2 (f0f2_2 + f1f1_2 + f3f9_76 + f4f8_38 + f5f7_76 + f6f6_19),
  set64 h3 (f0f3_2 + f1f2_2 + f4f9_38 + f5f8_38 + f6f7_38),
  set64 h4 (f0f4_2 + f1f3_4 + f2f2 + f5f9_76 + f6f8_38 + f7f7_38),
  set64 h5 (f0f5_2 + f1f4_2 + f2f3_2 + f6f9_38 + f7f8_38),
  set64 h6 (f0f6_2 + f1f5_4 + f2f4_2 + f3f3_2 + f7f9_76 + f8f8_19),
  set64 h7 (f0f7_2 + f1f6_2 + f2f5_2 + f3f4_2 + f8f9_38),
  set64 h8 (f0f8_2 + f1f7_4 + f2f6_2 + f3f5_4 + f4f4 + f9f9_38),
  set64 h9 (f0f9_2 + f1f8_2 + f2f7_2 + f3f6_2 + f4f5_2),
  shr64 carry0 (h0 + 33554432) 26,
  set64 h1 (h1 + carry0),
  set64 h0 (h0 - (carry0 <<< 26)),
  shr64 carry4 (h4 + 33554432) 26,
  set64 h5 (h5 + carry4),
  set64 h4 (h4 - (carry4 <<< 26)),
  shr64 carry1 (h1 + 16777216) 25,
  set64 h2 (h2 + carry1),
  set64 h1 (h1 - (carry1 <<< 25)),
  shr64 carry5 (h5 + 16777216) 25,
  set64 h6 (h6 + carry5),
  set64 h5 (h5 - (carry5 <<< 25)),
  shr64 carry2 (h2 + 33554432) 26,
  set64 h3 (h3 + carry2),
  set64 h2 (h2 - (carry2 <<< 26)),
  shr64 carry6 (h6 + 33554432) 26,
  set64 h7 (h7 + carry6),
  set64 h6 (h6 - (carry6 <<< 26)),
  shr64 carry3 (h3 + 16777216) 25,
  set64 h4 (h4 + carry3),
  set64 h3 (h3 - (carry3 <<< 25)),
  shr64 carry7 (h7 + 16777216) 25,
  set64 h8 (h8 + carry7),
  set64 h7 (h7 - (carry7 <<< 25)),
  shr64 carry4 (h4 + 33554432) 26,
  set64 h5 (h5 + carry4),
  set64 h4 (h4 - (carry4 <<< 26)),
  shr64 carry8 (h8 + 33554432) 26,
  set64 h9 (h9 + carry8),
  set64 h8 (h8 - (carry8 <<< 26)),
  shr64 carry9 (h9 + 16777216) 25,
  set64 h0 (h0 + (carry9 * 19)),
  set64 h9 (h9 - (carry9 <<< 25)),
  shr64 carry0 (h0 + 33554432) 26,
  set64 h1 (h1 + carry0),
  set64 h0 (h0 - (carry0 <<< 26)),
  set32 out0 h0,
  set32 out1 h1,
  set32 out2 h2,
  set32 out3 h3,
  set32 out4 h4,
  set32 out5 h5,
  set32 out6 h6,
  set32 out7 h7,
  set32 out8 h8,
  set32 out9 h9]

end FeSquare

namespace FeSquare2

/-! Variables of `FeSquare2`, crypto/internal/ed25519/edwards25519/edwards25519.go:707-862. -/
/-- edwards25519.go:707-862 -/ def f0 : Ex := .v 0
/-- edwards25519.go:707-862 -/ def f1 : Ex := .v 1
/-- edwards25519.go:707-862 -/ def f2 : Ex := .v 2
/-- edwards25519.go:707-862 -/ def f3 : Ex := .v 3
/-- edwards25519.go:707-862 -/ def f4 : Ex := .v 4
/-- edwards25519.go:707-862 -/ def f5 : Ex := .v 5
/-- edwards25519.go:707-862 -/ def f6 : Ex := .v 6
/-- edwards25519.go:707-862 -/ def f7 : Ex := .v 7
/-- edwards25519.go:707-862 -/ def f8 : Ex := .v 8
/-- edwards25519.go:707-862 -/ def f9 : Ex := .v 9
/-- edwards25519.go:707-862 -/ def f0_2 : Ex := .v 10
/-- edwards25519.go:707-862 -/ def f1_2 : Ex := .v 11
/-- edwards25519.go:707-862 -/ def f2_2 : Ex := .v 12
/-- edwards25519.go:707-862 -/ def f3_2 : Ex := .v 13
/-- edwards25519.go:707-862 -/ def f4_2 : Ex := .v 14
/-- edwards25519.go:707-862 -/ def f5_2 : Ex := .v 15
/-- edwards25519.go:707-862 -/ def f6_2 : Ex := .v 16
/-- edwards25519.go:707-862 -/ def f7_2 : Ex := .v 17
/-- edwards25519.go:707-862 -/ def f5_38 : Ex := .v 18
/-- edwards25519.go:707-862 -/ def f6_19 : Ex := .v 19
/-- edwards25519.go:707-862 -/ def f7_38 : Ex := .v 20
/-- edwards25519.go:707-862 -/ def f8_19 : Ex := .v 21
/-- edwards25519.go:707-862 -/ def f9_38 : Ex := .v 22
/-- edwards25519.go:707-862 -/ def f0f0 : Ex := .v 23
/-- edwards25519.go:707-862 -/ def f0f1_2 : Ex := .v 24
/-- edwards25519.go:707-862 -/ def f0f2_2 : Ex := .v 25
/-- edwards25519.go:707-862 -/ def f0f3_2 : Ex := .v 26
/-- edwards25519.go:707-862 -/ def f0f4_2 : Ex := .v 27
/-- edwards25519.go:707-862 -/ def f0f5_2 : Ex := .v 28
/-- edwards25519.go:707-862 -/ def f0f6_2 : Ex := .v 29
/-- edwards25519.go:707-862 -/ def f0f7_2 : Ex := .v 30
/-- edwards25519.go:707-862 -/ def f0f8_2 : Ex := .v 31
/-- edwards25519.go:707-862 -/ def f0f9_2 : Ex := .v 32
/-- edwards25519.go:707-862 -/ def f1f1_2 : Ex := .v 33
/-- edwards25519.go:707-862 -/ def f1f2_2 : Ex := .v 34
/-- edwards25519.go:707-862 -/ def f1f3_4 : Ex := .v 35
/-- edwards25519.go:707-862 -/ def f1f4_2 : Ex := .v 36
/-- edwards25519.go:707-862 -/ def f1f5_4 : Ex := .v 37
/-- edwards25519.go:707-862 -/ def f1f6_2 : Ex := .v 38
/-- edwards25519.go:707-862 -/ def f1f7_4 : Ex := .v 39
/-- edwards25519.go:707-862 -/ def f1f8_2 : Ex := .v 40
/-- edwards25519.go:707-862 -/ def f1f9_76 : Ex := .v 41
/-- edwards25519.go:707-862 -/ def f2f2 : Ex := .v 42
/-- edwards25519.go:707-862 -/ def f2f3_2 : Ex := .v 43
/-- edwards25519.go:707-862 -/ def f2f4_2 : Ex := .v 44
/-- edwards25519.go:707-862 -/ def f2f5_2 : Ex := .v 45
/-- edwards25519.go:707-862 -/ def f2f6_2 : Ex := .v 46
/-- edwards25519.go:707-862 -/ def f2f7_2 : Ex := .v 47
/-- edwards25519.go:707-862 -/ def f2f8_38 : Ex := .v 48
/-- edwards25519.go:707-862 -/ def f2f9_38 : Ex := .v 49
/-- edwards25519.go:707-862 -/ def f3f3_2 : Ex := .v 50
/-- edwards25519.go:707-862 -/ def f3f4_2 : Ex := .v 51
/-- edwards25519.go:707-862 -/ def f3f5_4 : Ex := .v 52
/-- edwards25519.go:707-862 -/ def f3f6_2 : Ex := .v 53
/-- edwards25519.go:707-862 -/ def f3f7_76 : Ex := .v 54
/-- edwards25519.go:707-862 -/ def f3f8_38 : Ex := .v 55
/-- edwards25519.go:707-862 -/ def f3f9_76 : Ex := .v 56
/-- edwards25519.go:707-862 -/ def f4f4 : Ex := .v 57
/-- edwards25519.go:707-862 -/ def f4f5_2 : Ex := .v 58
/-- edwards25519.go:707-862 -/ def f4f6_38 : Ex := .v 59
/-- edwards25519.go:707-862 -/ def f4f7_38 : Ex := .v 60
/-- edwards25519.go:707-862 -/ def f4f8_38 : Ex := .v 61
/-- edwards25519.go:707-862 -/ def f4f9_38 : Ex := .v 62
/-- edwards25519.go:707-862 -/ def f5f5_38 : Ex := .v 63
/-- edwards25519.go:707-862 -/ def f5f6_38 : Ex := .v 64
/-- edwards25519.go:707-862 -/ def f5f7_76 : Ex := .v 65
/-- edwards25519.go:707-862 -/ def f5f8_38 : Ex := .v 66
/-- edwards25519.go:707-862 -/ def f5f9_76 : Ex := .v 67
/-- edwards25519.go:707-862 -/ def f6f6_19 : Ex := .v 68
/-- edwards25519.go:707-862 -/ def f6f7_38 : Ex := .v 69
/-- edwards25519.go:707-862 -/ def f6f8_38 : Ex := .v 70
/-- edwards25519.go:707-862 -/ def f6f9_38 : Ex := .v 71
/-- edwards25519.go:707-862 -/ def f7f7_38 : Ex := .v 72
/-- edwards25519.go:707-862 -/ def f7f8_38 : Ex := .v 73
/-- edwards25519.go:707-862 -/ def f7f9_76 : Ex := .v 74
/-- edwards25519.go:707-862 -/ def f8f8_19 : Ex := .v 75
/-- edwards25519.go:707-862 -/ def f8f9_38 : Ex := .v 76
/-- edwards25519.go:707-862 -/ def f9f9_38 : Ex := .v 77
/-- edwards25519.go:707-862 -/ def h0 : Ex := .v 78
/-- edwards25519.go:707-862 -/ def h1 : Ex := .v 79
/-- edwards25519.go:707-862 -/ def h2 : Ex := .v 80
/-- edwards25519.go:707-862 -/ def h3 : Ex := .v 81
/-- edwards25519.go:707-862 -/ def h4 : Ex := .v 82
/-- edwards25519.go:707-862 -/ def h5 : Ex := .v 83
/-- edwards25519.go:707-862 -/ def h6 : Ex := .v 84
/-- edwards25519.go:707-862 -/ def h7 : Ex := .v 85
/-- edwards25519.go:707-862 -/ def h8 : Ex := .v 86
/-- edwards25519.go:707-862 -/ def h9 : Ex := .v 87
/-- edwards25519.go:707-862 -/ def carry0 : Ex := .v 88
/-- edwards25519.go:707-862 -/ def carry4 : Ex := .v 89
/-- edwards25519.go:707-862 -/ def carry1 : Ex := .v 90
/-- edwards25519.go:707-862 -/ def carry5 : Ex := .v 91
/-- edwards25519.go:707-862 -/ def carry2 : Ex := .v 92
/-- edwards25519.go:707-862 -/ def carry6 : Ex := .v 93
/-- edwards25519.go:707-862 -/ def carry3 : Ex := .v 94
/-- edwards25519.go:707-862 -/ def carry7 : Ex := .v 95
/-- edwards25519.go:707-862 -/ def carry8 : Ex := .v 96
/-- edwards25519.go:707-862 -/ def carry9 : Ex := .v 97
/-- edwards25519.go:707-862 -/ def out0 : Ex := .v 98
/-- edwards25519.go:707-862 -/ def out1 : Ex := .v 99
/-- edwards25519.go:707-862 -/ def out2 : Ex := .v 100
/-- edwards25519.go:707-862 -/ def out3 : Ex := .v 101
/-- edwards25519.go:707-862 -/ def out4 : Ex := .v 102
/-- edwards25519.go:707-862 -/ def out5 : Ex := .v 103
/-- edwards25519.go:707-862 -/ def out6 : Ex := .v 104
/-- edwards25519.go:707-862 -/ def out7 : Ex := .v 105
/-- edwards25519.go:707-862 -/ def out8 : Ex := .v 106
/-- edwards25519.go:707-862 -/ def out9 : Ex := .v 107

/-- crypto/internal/ed25519/edwards25519/edwards25519.go:718-861 (`FeSquare2`) -/
def prog : List St := [
  set32 f0_2 (2 * f0),
  set32 f1_2 (2 * f1),
  set32 f2_2 (2 * f2),
  set32 f3_2 (2 * f3),
  set32 f4_2 (2 * f4),
  set32 f5_2 (2 * f5),
  set32 f6_2 (2 * f6),
  set32 f7_2 (2 * f7),
  set32 f5_38 (38 * f5),
  set32 f6_19 (19 * f6),
  set32 f7_38 (38 * f7),
  set32 f8_19 (19 * f8),
  set32 f9_38 (38 * f9),
  set64 f0f0 (f0 * f0),
  set64 f0f1_2 (f0_2 * f1),
  set64 f0f2_2 (f0_2 * f2),
  set64 f0f3_2 (f0_2 * f3),
  set64 f0f4_2 (f0_2 * f4),
  set64 f0f5_2 (f0_2 * f5),
  set64 f0f6_2 (f0_2 * f6),
  set64 f0f7_2 (f0_2 * f7),
  set64 f0f8_2 (f0_2 * f8),
  set64 f0f9_2 (f0_2 * f9),
  set64 f1f1_2 (f1_2 * f1),
  set64 f1f2_2 (f1_2 * f2),
  set64 f1f3_4 (f1_2 * f3_2),
  set64 f1f4_2 (f1_2 * f4),
  set64 f1f5_4 (f1_2 * f5_2),
  set64 f1f6_2 (f1_2 * f6),
  set64 f1f7_4 (f1_2 * f7_2),
  set64 f1f8_2 (f1_2 * f8),
  set64 f1f9_76 (f1_2 * f9_38),
  set64 f2f2 (f2 * f2),
  set64 f2f3_2 (f2_2 * f3),
  set64 f2f4_2 (f2_2 * f4),
  set64 f2f5_2 (f2_2 * f5),
  set64 f2f6_2 (f2_2 * f6),
  set64 f2f7_2 (f2_2 * f7),
  set64 f2f8_38 (f2_2 * f8_19),
  set64 f2f9_38 (f2 * f9_38),
  set64 f3f3_2 (f3_2 * f3),
  set64 f3f4_2 (f3_2 * f4),
  set64 f3f5_4 (f3_2 * f5_2),
  set64 f3f6_2 (f3_2 * f6),
  set64 f3f7_76 (f3_2 * f7_38),
  set64 f3f8_38 (f3_2 * f8_19),
  set64 f3f9_76 (f3_2 * f9_38),
  set64 f4f4 (f4 * f4),
  set64 f4f5_2 (f4_2 * f5),
  set64 f4f6_38 (f4_2 * f6_19),
  set64 f4f7_38 (f4 * f7_38),
  set64 f4f8_38 (f4_2 * f8_19),
  set64 f4f9_38 (f4 * f9_38),
  set64 f5f5_38 (f5 * f5_38),
  set64 f5f6_38 (f5_2 * f6_19),
  set64 f5f7_76 (f5_2 * f7_38),
  set64 f5f8_38 (f5_2 * f8_19),
  set64 f5f9_76 (f5_2 * f9_38),
  set64 f6f6_19 (f6 * f6_19),
  set64 f6f7_38 (f6 * f7_38),
  set64 f6f8_38 (f6_2 * f8_19),
  set64 f6f9_38 (f6 * f9_38),
  set64 f7f7_38 (f7 * f7_38),
  set64 f7f8_38 (f7_2 * f8_19),
  set64 f7f9_76 (f7_2 * f9_38),
  set64 f8f8_19 (f8 * f8_19),
  set64 f8f9_38 (f8 * f9_38),
  set64 f9f9_38 (f9 * f9_38),
  set64 h0 (f0f0 + f1f9_76 + f2f8_38 + f3f7_76 + f4f6_38 + f5f5_38),
  set64 h1 (f0f1_2 + f2f9_38 + f3f8_38 + f4f7_38 + f5f6_38),
  set64 h2 (f0f2_2 + f1f1_2 + f3f9_76 + f4f8_38 + f5f7_76 + f6f6_19),
  set64 h3 (f0f3_2 + f1f2_2 + f4f9_38 + f5f8_38 + f6f7_38),
  set64 h4 (f0f4_2 + f1f3_4 + f2f2 + f5f9_76 + f6f8_38 + f7f7_38),
  set64 h5 (f0f5_2 + f1f4_2 + f2f3_2 + f6f9_38 + f7f8_38),
  set64 h6 (f0f6_2 + f1f5_4 + f2f4_2 + f3f3_2 + f7f9_76 + f8f8_19),
  set64 h7 (f0f7_2 + f1f6_2 + f2f5_2 + f3f4_2 + f8f9_38),
  set64 h8 (f0f8_2 + f1f7_4 + f2f6_2 + f3f5_4 + f4f4 + f9f9_38),
  set64 h9 (f0f9_2 + f1f8_2 + f2f7_2 + f3f6_2 + f4f5_2),
  set64 h0 (h0 + h0),
  set64 h1 (h1 + h1),
  set64 h2 (h2 + h2),
  set64 h3 (h3 + h3),
  set64 h4 (h4 + h4),
  set64 h5 (h5 + h5),
  set64 h6 (h6 + h6),
  set64 h7 (h7 + h7),
  set64 h8 (h8 + h8),
  set64 h9 (h9 + h9),
  shr64 carry0 (h0 + 33554432) 26,
  set64 h1 (h1 + carry0),
  set64 h0 (h0 - (carry0 <<< 26)),
  shr64 carry4 (h4 + 33554432) 26,
  set64 h5 (h5 + carry4),
  set64 h4 (h4 - (carry4 <<< 26)),
  shr64 carry1 (h1 + 16777216) 25,
  set64 h2 (h2 + carry1),
  set64 h1 (h1 - (carry1 <<< 25)),
  shr64 carry5 (h5 + 16777216) 25,
  set64 h6 (h6 + carry5),
  set64 h5 (h5 - (carry5 <<< 25)),
  shr64 carry2 (h2 + 33554432) 26,
  set64 h3 (h3 + carry2),
  set64 h2 (h2 - (carry2 <<< 26)),
  shr64 carry6 (h6 + 33554432) 26,
  set64 h7 (h7 + carry6),
  set64 h6 (h6 - (carry6 <<< 26)),
  shr64 carry3 (h3 + 16777216) 25,
  set64 h4 (h4 + carry3),
  set64 h3 (h3 - (carry3 <<< 25)),
  shr64 carry7 (h7 + 16777216) 25,
  set64 h8 (h8 + carry7),
  set64 h7 (h7 - (carry7 <<< 25)),
  shr64 carry4 (h4 + 33554432) 26,
  set64 h5 (h5 + carry4),
  set64 h4 (h4 - (carry4 <<< 26)),
  shr64 carry8 (h8 + 33554432) 26,
  set64 h9 (h9 + carry8),
  set64 h8 (h8 - (carry8 <<< 26)),
  shr64 carry9 (h9 + 16777216) 25,
  set64 h0 (h0 + (carry9 * 19)),
  set64 h9 (h9 - (carry9 <<< 25)),
  shr64 carry0 (h0 + 33554432) 26,
  set64 h1 (h1 + carry0),
  set64 h0 (h0 - (carry0 <<< 26)),
  set32 out0 h0,
  set32 out1 h1,
  set32 out2 h2,
  set32 out3 h3,
  set32 out4 h4,
  set32 out5 h5,
  set32 out6 h6,
  set32 out7 h7,
  set32 out8 h8,
  set32 out9 h9]

end FeSquare2

end Coniks.Ed
