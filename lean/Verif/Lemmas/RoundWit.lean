import Verif.Lemmas.Double
import Verif.Model.Rounded
import Mathlib.Tactic.FinCases

/-!
# `Phi35L` in binary64 arithmetic for one motion: every rounding, one by one

Generated by tools/gen_round.py: the numbers are those of the computation, each rounding is proved.
-/
namespace Drift
namespace F64
namespace Wit
open Matrix

/-- a matrix that commutes with rotations about the vertical axis -/
def bk (p q r : ℝ) : M3 := !![p, -q, 0; q, p, 0; 0, 0, r]

theorem rn0 (R : Round) : R.rn 0 = 0 := rn_of_F R IsF.zero

theorem rnrn (R : Round) (x : ℝ) : R.rn (R.rn x) = R.rn x := rn_of_F R (R.isF x)

theorem mulM_bk (F : Fpu) {p q r p' q' r' P Q S : ℝ} (h1 : F.rn (F.rn (p * p') + F.rn (-(q * q'))) = P)
    (h2 : F.rn (F.rn (-(p * q')) + F.rn (-(q * p'))) = -Q) (h3 : F.rn (F.rn (q * p') + F.rn (p * q')) = Q)
    (h4 : F.rn (F.rn (-(q * q')) + F.rn (p * p')) = P) (h5 : F.rn (r * r') = S) : mulM F (bk p q r) (bk p' q' r') = bk P Q S := by
  have e1 : F.rn P = P := by rw [← h1, rnrn F.toRound]
  have e2 : F.rn (-Q) = -Q := by rw [← h2, rnrn F.toRound]
  have e3 : F.rn Q = Q := by rw [← h3, rnrn F.toRound]
  have e5 : F.rn S = S := by rw [← h5, rnrn F.toRound]
  ext i j; fin_cases i <;> fin_cases j <;> simp [mulM, sum3, bk, rn0 F.toRound, rnrn F.toRound, *]

theorem addM_bk (R : Round) {p q r p' q' r' P Q S : ℝ} (h1 : R.rn (p + p') = P) (h2 : R.rn (-q + -q') = -Q) (h3 : R.rn (q + q') = Q)
    (h4 : R.rn (r + r') = S) : addM R (bk p q r) (bk p' q' r') = bk P Q S := by
  ext i j; fin_cases i <;> fin_cases j <;> simp [addM, bk, rn0, -neg_add_rev, *]

theorem subM_bk (R : Round) {p q r p' q' r' P Q S : ℝ} (h1 : R.rn (p - p') = P) (h2 : R.rn (-q - -q') = -Q) (h3 : R.rn (q - q') = Q)
    (h4 : R.rn (r - r') = S) : subM R (bk p q r) (bk p' q' r') = bk P Q S := by
  rw [sub_neg_eq_add] at h2
  ext i j; fin_cases i <;> fin_cases j <;> simp [subM, bk, rn0, *]

theorem smulM_bk (R : Round) {c p q r P Q S : ℝ} (h1 : R.rn (c * p) = P) (h2 : R.rn (-(c * q)) = -Q) (h3 : R.rn (c * q) = Q)
    (h4 : R.rn (c * r) = S) : smulM R c (bk p q r) = bk P Q S := by
  ext i j; fin_cases i <;> fin_cases j <;> simp [smulM, bk, rn0, *]

theorem sin1 (R : Round) : R.rn (Real.sin (51/1073741824)) = 7177611906121725/151115727451828646838272 := by
  have h := rn_eq R (x := Real.sin (51/1073741824)) (n := 7177611906121725) (e := -77) (by norm_num) (by norm_num) (by norm_num) (by
    have h := abs_le.mp (Real.sin_bound (x := 51/1073741824) (by rw [abs_le]; norm_num))
    rw [abs_lt]; norm_num [abs_of_pos] at h ⊢; constructor <;> linarith)
  rw [h]; norm_num
theorem cos1 (R : Round) : R.rn (Real.cos (51/1073741824)) = 4503599627370491/4503599627370496 := by
  have h := rn_eq R (x := Real.cos (51/1073741824)) (n := 9007199254740982) (e := -53) (by norm_num) (by norm_num) (by norm_num) (by
    have h := abs_le.mp (Real.cos_bound (x := 51/1073741824) (by rw [abs_le]; norm_num))
    rw [abs_lt]; norm_num [abs_of_pos] at h ⊢; constructor <;> linarith)
  rw [h]; norm_num
theorem sin2 (R : Round) : R.rn (Real.sin (51/536870912)) = 7177611906121717/75557863725914323419136 := by
  have h := rn_eq R (x := Real.sin (51/536870912)) (n := 7177611906121717) (e := -76) (by norm_num) (by norm_num) (by norm_num) (by
    have h := abs_le.mp (Real.sin_bound (x := 51/536870912) (by rw [abs_le]; norm_num))
    rw [abs_lt]; norm_num [abs_of_pos] at h ⊢; constructor <;> linarith)
  rw [h]; norm_num
theorem cos2 (R : Round) : R.rn (Real.cos (51/536870912)) = 9007199254740951/9007199254740992 := by
  have h := rn_eq R (x := Real.cos (51/536870912)) (n := 9007199254740951) (e := -53) (by norm_num) (by norm_num) (by norm_num) (by
    have h := abs_le.mp (Real.cos_bound (x := 51/536870912) (by rw [abs_le]; norm_num))
    rw [abs_lt]; norm_num [abs_of_pos] at h ⊢; constructor <;> linarith)
  rw [h]; norm_num
theorem f0 (R : Round) : R.rn (51/1073741824) = 51/1073741824 :=
  rn_of_F R ⟨51, -30, by norm_num, by norm_num, by norm_num⟩
theorem sc_phi (R : Round) : R.rn (1/128 * (51/8388608)) = 51/1073741824 := by
  norm_num [rn0, f0]
theorem f1 (R : Round) : R.rn (2601/70368744177664) = 2601/70368744177664 :=
  rn_of_F R ⟨2601, -46, by norm_num, by norm_num, by norm_num⟩
theorem sc_nsq (R : Round) : R.rn (51/8388608 * (51/8388608)) = 2601/70368744177664 := by
  norm_num [rn0, f1]
theorem f2 (R : Round) : R.rn (2601/1152921504606846976) = 2601/1152921504606846976 :=
  rn_of_F R ⟨2601, -60, by norm_num, by norm_num, by norm_num⟩
theorem sc_xsq (R : Round) : R.rn (51/1073741824 * (51/1073741824)) = 2601/1152921504606846976 := by
  norm_num [rn0, f2]
theorem f3 (R : Round) : R.rn (2392537302040575/2392537302040576) = 2251799813685247/2251799813685248 := by
  have h := rn_eq R (x := 2392537302040575/2392537302040576) (n := 9007199254740988) (e := -53) (by norm_num) (by norm_num) (by norm_num) (by rw [abs_lt]; norm_num)
  rw [h]; norm_num
theorem sc_s (R : Round) : R.rn (7177611906121725/151115727451828646838272 / (51/1073741824)) = 2251799813685247/2251799813685248 := by
  norm_num [rn0, f3]
theorem f4 (R : Round) : R.rn (5/4503599627370496) = 5/4503599627370496 :=
  rn_of_F R ⟨5, -52, by norm_num, by norm_num, by norm_num⟩
theorem f5 (R : Round) : R.rn (1280/2601) = 2216304314892055/4503599627370496 := by
  have h := rn_eq R (x := 1280/2601) (n := 8865217259568220) (e := -54) (by norm_num) (by norm_num) (by norm_num) (by rw [abs_lt]; norm_num)
  rw [h]; norm_num
theorem sc_c (R : Round) : R.rn (R.rn (1 - (4503599627370491/4503599627370496)) / R.rn (51/1073741824 * (51/1073741824))) = 2216304314892055/4503599627370496 := by
  norm_num [rn0, f4, f2, f5]
theorem f6 (R : Round) : R.rn (-(114841790497947597/2417851639229258349412352)) = -(7177611906121725/151115727451828646838272) := by
  have h := rn_eq R (x := -(114841790497947597/2417851639229258349412352)) (n := -7177611906121725) (e := -77) (by norm_num) (by norm_num) (by norm_num) (by rw [abs_lt]; norm_num)
  rw [h]; norm_num
theorem f7 (R : Round) : R.rn (114841790497947597/2417851639229258349412352) = 7177611906121725/151115727451828646838272 := by
  have h := rn_eq R (x := 114841790497947597/2417851639229258349412352) (n := 7177611906121725) (e := -77) (by norm_num) (by norm_num) (by norm_num) (by rw [abs_lt]; norm_num)
  rw [h]; norm_num
theorem st0 (R : Round) : smulM R (2251799813685247/2251799813685248) (bk (0) (51/1073741824) (0)) = (bk (0) (7177611906121725/151115727451828646838272) (0)) :=
  smulM_bk R (by norm_num [rn0, f6, f7]) (by norm_num [rn0, f6, f7]) (by norm_num [rn0, f6, f7]) (by norm_num [rn0, f6, f7])
theorem f8 (R : Round) : R.rn (1) = 1 :=
  rn_of_F R ⟨1, 0, by norm_num, by norm_num, by norm_num⟩
theorem f9 (R : Round) : R.rn (-(7177611906121725/151115727451828646838272)) = -(7177611906121725/151115727451828646838272) :=
  rn_of_F R ⟨-7177611906121725, -77, by norm_num, by norm_num, by norm_num⟩
theorem f10 (R : Round) : R.rn (7177611906121725/151115727451828646838272) = 7177611906121725/151115727451828646838272 :=
  rn_of_F R ⟨7177611906121725, -77, by norm_num, by norm_num, by norm_num⟩
theorem st1 (R : Round) : addM R (bk (1) (0) (1)) (bk (0) (7177611906121725/151115727451828646838272) (0)) = (bk (1) (7177611906121725/151115727451828646838272) (1)) :=
  addM_bk R (by norm_num [rn0, f8, f9, f10]) (by norm_num [rn0, f8, f9, f10]) (by norm_num [rn0, f8, f9, f10]) (by norm_num [rn0, f8, f9, f10])
theorem f11 (R : Round) : R.rn (-(113031520059494805/4835703278458516698824704)) = -(7064470003718425/302231454903657293676544) := by
  have h := rn_eq R (x := -(113031520059494805/4835703278458516698824704)) (n := -7064470003718425) (e := -78) (by norm_num) (by norm_num) (by norm_num) (by rw [abs_lt]; norm_num)
  rw [h]; norm_num
theorem f12 (R : Round) : R.rn (113031520059494805/4835703278458516698824704) = 7064470003718425/302231454903657293676544 := by
  have h := rn_eq R (x := 113031520059494805/4835703278458516698824704) (n := 7064470003718425) (e := -78) (by norm_num) (by norm_num) (by norm_num) (by rw [abs_lt]; norm_num)
  rw [h]; norm_num
theorem st2 (R : Round) : smulM R (2216304314892055/4503599627370496) (bk (0) (51/1073741824) (0)) = (bk (0) (7064470003718425/302231454903657293676544) (0)) :=
  smulM_bk R (by norm_num [rn0, f11, f12]) (by norm_num [rn0, f11, f12]) (by norm_num [rn0, f11, f12]) (by norm_num [rn0, f11, f12])
theorem f13 (R : Round) : R.rn (-(360287970189639675/324518553658426726783156020576256)) = -(5/4503599627370496) := by
  have h := rn_eq R (x := -(360287970189639675/324518553658426726783156020576256)) (n := -5629499534213120) (e := -102) (by norm_num) (by norm_num) (by norm_num) (by rw [abs_lt]; norm_num)
  rw [h]; norm_num
theorem f14 (R : Round) : R.rn (-(5/4503599627370496)) = -(5/4503599627370496) :=
  rn_of_F R ⟨-5, -52, by norm_num, by norm_num, by norm_num⟩
theorem st3 (F : Fpu) : mulM F (bk (0) (7064470003718425/302231454903657293676544) (0)) (bk (0) (51/1073741824) (0)) = (bk (-(5/4503599627370496)) (0) (0)) :=
  mulM_bk F (by norm_num [rn0 F.toRound, f13 F.toRound, f14 F.toRound]) (by norm_num [rn0 F.toRound, f13 F.toRound, f14 F.toRound]) (by norm_num [rn0 F.toRound, f13 F.toRound, f14 F.toRound]) (by norm_num [rn0 F.toRound, f13 F.toRound, f14 F.toRound]) (by norm_num [rn0 F.toRound, f13 F.toRound, f14 F.toRound])
theorem f15 (R : Round) : R.rn (4503599627370491/4503599627370496) = 4503599627370491/4503599627370496 :=
  rn_of_F R ⟨4503599627370491, -52, by norm_num, by norm_num, by norm_num⟩
theorem st4 (R : Round) : addM R (bk (1) (7177611906121725/151115727451828646838272) (1)) (bk (-(5/4503599627370496)) (0) (0)) = (bk (4503599627370491/4503599627370496) (7177611906121725/151115727451828646838272) (1)) :=
  addM_bk R (by norm_num [rn0, f15, f9, f10, f8]) (by norm_num [rn0, f15, f9, f10, f8]) (by norm_num [rn0, f15, f9, f10, f8]) (by norm_num [rn0, f15, f9, f10, f8])
theorem f16 (R : Round) : R.rn (-(51/1073741824)) = -(51/1073741824) :=
  rn_of_F R ⟨-51, -30, by norm_num, by norm_num, by norm_num⟩
theorem st5 (F : Fpu) : mulM F (bk (1) (0) (1)) (bk (0) (-(51/1073741824)) (0)) = (bk (0) (-(51/1073741824)) (0)) :=
  mulM_bk F (by norm_num [rn0 F.toRound, f0 F.toRound, f16 F.toRound]) (by norm_num [rn0 F.toRound, f0 F.toRound, f16 F.toRound]) (by norm_num [rn0 F.toRound, f0 F.toRound, f16 F.toRound]) (by norm_num [rn0 F.toRound, f0 F.toRound, f16 F.toRound]) (by norm_num [rn0 F.toRound, f0 F.toRound, f16 F.toRound])
theorem sc_one (R : Round) : R.rn (1 / 1) = 1 := by
  norm_num [rn0, f8]
theorem st6 (R : Round) : smulM R (1) (bk (0) (-(51/1073741824)) (0)) = (bk (0) (-(51/1073741824)) (0)) :=
  smulM_bk R (by norm_num [rn0, f0, f16]) (by norm_num [rn0, f0, f16]) (by norm_num [rn0, f0, f16]) (by norm_num [rn0, f0, f16])
theorem st7 (R : Round) : addM R (bk (1) (0) (1)) (bk (0) (-(51/1073741824)) (0)) = (bk (1) (-(51/1073741824)) (1)) :=
  addM_bk R (by norm_num [rn0, f8, f0, f16]) (by norm_num [rn0, f8, f0, f16]) (by norm_num [rn0, f8, f0, f16]) (by norm_num [rn0, f8, f0, f16])
theorem f17 (R : Round) : R.rn (-(2601/1152921504606846976)) = -(2601/1152921504606846976) :=
  rn_of_F R ⟨-2601, -60, by norm_num, by norm_num, by norm_num⟩
theorem st8 (F : Fpu) : mulM F (bk (0) (-(51/1073741824)) (0)) (bk (0) (-(51/1073741824)) (0)) = (bk (-(2601/1152921504606846976)) (0) (0)) :=
  mulM_bk F (by norm_num [rn0 F.toRound, f17 F.toRound]) (by norm_num [rn0 F.toRound, f17 F.toRound]) (by norm_num [rn0 F.toRound, f17 F.toRound]) (by norm_num [rn0 F.toRound, f17 F.toRound]) (by norm_num [rn0 F.toRound, f17 F.toRound])
theorem f18 (R : Round) : R.rn (1/2) = 1/2 :=
  rn_of_F R ⟨1, -1, by norm_num, by norm_num, by norm_num⟩
theorem sc_half (R : Round) : R.rn (1 / 2) = 1/2 := by
  norm_num [rn0, f18]
theorem f19 (R : Round) : R.rn (-(2601/2305843009213693952)) = -(2601/2305843009213693952) :=
  rn_of_F R ⟨-2601, -61, by norm_num, by norm_num, by norm_num⟩
theorem st9 (R : Round) : smulM R (1/2) (bk (-(2601/1152921504606846976)) (0) (0)) = (bk (-(2601/2305843009213693952)) (0) (0)) :=
  smulM_bk R (by norm_num [rn0, f19]) (by norm_num [rn0, f19]) (by norm_num [rn0, f19]) (by norm_num [rn0, f19])
theorem f20 (R : Round) : R.rn (2305843009213691351/2305843009213693952) = 4503599627370491/4503599627370496 := by
  have h := rn_eq R (x := 2305843009213691351/2305843009213693952) (n := 9007199254740982) (e := -53) (by norm_num) (by norm_num) (by norm_num) (by rw [abs_lt]; norm_num)
  rw [h]; norm_num
theorem st10 (R : Round) : addM R (bk (1) (-(51/1073741824)) (1)) (bk (-(2601/2305843009213693952)) (0) (0)) = (bk (4503599627370491/4503599627370496) (-(51/1073741824)) (1)) :=
  addM_bk R (by norm_num [rn0, f20, f0, f16, f8]) (by norm_num [rn0, f20, f0, f16, f8]) (by norm_num [rn0, f20, f0, f16, f8]) (by norm_num [rn0, f20, f0, f16, f8])
theorem f21 (R : Round) : R.rn (-(132651/1237940039285380274899124224)) = -(132651/1237940039285380274899124224) :=
  rn_of_F R ⟨-132651, -90, by norm_num, by norm_num, by norm_num⟩
theorem f22 (R : Round) : R.rn (132651/1237940039285380274899124224) = 132651/1237940039285380274899124224 :=
  rn_of_F R ⟨132651, -90, by norm_num, by norm_num, by norm_num⟩
theorem st11 (F : Fpu) : mulM F (bk (-(2601/1152921504606846976)) (0) (0)) (bk (0) (-(51/1073741824)) (0)) = (bk (0) (132651/1237940039285380274899124224) (0)) :=
  mulM_bk F (by norm_num [rn0 F.toRound, f21 F.toRound, f22 F.toRound]) (by norm_num [rn0 F.toRound, f21 F.toRound, f22 F.toRound]) (by norm_num [rn0 F.toRound, f21 F.toRound, f22 F.toRound]) (by norm_num [rn0 F.toRound, f21 F.toRound, f22 F.toRound]) (by norm_num [rn0 F.toRound, f21 F.toRound, f22 F.toRound])
theorem f23 (R : Round) : R.rn (1/6) = 6004799503160661/36028797018963968 := by
  have h := rn_eq R (x := 1/6) (n := 6004799503160661) (e := -55) (by norm_num) (by norm_num) (by norm_num) (by rw [abs_lt]; norm_num)
  rw [h]; norm_num
theorem sc_sixth (R : Round) : R.rn (1 / 6) = 6004799503160661/36028797018963968 := by
  norm_num [rn0, f23]
theorem f24 (R : Round) : R.rn (-(796542658893764842311/44601490397061246283071436545296723011960832)) = -(44217/2475880078570760549798248448) := by
  have h := rn_eq R (x := -(796542658893764842311/44601490397061246283071436545296723011960832)) (n := -6077138205671424) (e := -128) (by norm_num) (by norm_num) (by norm_num) (by rw [abs_lt]; norm_num)
  rw [h]; norm_num
theorem f25 (R : Round) : R.rn (796542658893764842311/44601490397061246283071436545296723011960832) = 44217/2475880078570760549798248448 := by
  have h := rn_eq R (x := 796542658893764842311/44601490397061246283071436545296723011960832) (n := 6077138205671424) (e := -128) (by norm_num) (by norm_num) (by norm_num) (by rw [abs_lt]; norm_num)
  rw [h]; norm_num
theorem st12 (R : Round) : smulM R (6004799503160661/36028797018963968) (bk (0) (132651/1237940039285380274899124224) (0)) = (bk (0) (44217/2475880078570760549798248448) (0)) :=
  smulM_bk R (by norm_num [rn0, f24, f25]) (by norm_num [rn0, f24, f25]) (by norm_num [rn0, f24, f25]) (by norm_num [rn0, f24, f25])
theorem f26 (R : Round) : R.rn (117597993469898347335/2475880078570760549798248448) = 7177611906121725/151115727451828646838272 := by
  have h := rn_eq R (x := 117597993469898347335/2475880078570760549798248448) (n := 7177611906121725) (e := -77) (by norm_num) (by norm_num) (by norm_num) (by rw [abs_lt]; norm_num)
  rw [h]; norm_num
theorem f27 (R : Round) : R.rn (-(117597993469898347335/2475880078570760549798248448)) = -(7177611906121725/151115727451828646838272) := by
  have h := rn_eq R (x := -(117597993469898347335/2475880078570760549798248448)) (n := -7177611906121725) (e := -77) (by norm_num) (by norm_num) (by norm_num) (by rw [abs_lt]; norm_num)
  rw [h]; norm_num
theorem st13 (R : Round) : addM R (bk (4503599627370491/4503599627370496) (-(51/1073741824)) (1)) (bk (0) (44217/2475880078570760549798248448) (0)) = (bk (4503599627370491/4503599627370496) (-(7177611906121725/151115727451828646838272)) (1)) :=
  addM_bk R (by norm_num [rn0, f15, f26, f27, f8]) (by norm_num [rn0, f15, f26, f27, f8]) (by norm_num [rn0, f15, f26, f27, f8]) (by norm_num [rn0, f15, f26, f27, f8])
theorem st14 (R : Round) : smulM R (2251799813685247/2251799813685248) (bk (0) (-(51/1073741824)) (0)) = (bk (0) (-(7177611906121725/151115727451828646838272)) (0)) :=
  smulM_bk R (by norm_num [rn0, f7, f6]) (by norm_num [rn0, f7, f6]) (by norm_num [rn0, f7, f6]) (by norm_num [rn0, f7, f6])
theorem st15 (R : Round) : addM R (bk (1) (0) (1)) (bk (0) (-(7177611906121725/151115727451828646838272)) (0)) = (bk (1) (-(7177611906121725/151115727451828646838272)) (1)) :=
  addM_bk R (by norm_num [rn0, f8, f10, f9]) (by norm_num [rn0, f8, f10, f9]) (by norm_num [rn0, f8, f10, f9]) (by norm_num [rn0, f8, f10, f9])
theorem st16 (R : Round) : smulM R (2216304314892055/4503599627370496) (bk (0) (-(51/1073741824)) (0)) = (bk (0) (-(7064470003718425/302231454903657293676544)) (0)) :=
  smulM_bk R (by norm_num [rn0, f12, f11]) (by norm_num [rn0, f12, f11]) (by norm_num [rn0, f12, f11]) (by norm_num [rn0, f12, f11])
theorem st17 (F : Fpu) : mulM F (bk (0) (-(7064470003718425/302231454903657293676544)) (0)) (bk (0) (-(51/1073741824)) (0)) = (bk (-(5/4503599627370496)) (0) (0)) :=
  mulM_bk F (by norm_num [rn0 F.toRound, f13 F.toRound, f14 F.toRound]) (by norm_num [rn0 F.toRound, f13 F.toRound, f14 F.toRound]) (by norm_num [rn0 F.toRound, f13 F.toRound, f14 F.toRound]) (by norm_num [rn0 F.toRound, f13 F.toRound, f14 F.toRound]) (by norm_num [rn0 F.toRound, f13 F.toRound, f14 F.toRound])
theorem st18 (R : Round) : addM R (bk (1) (-(7177611906121725/151115727451828646838272)) (1)) (bk (-(5/4503599627370496)) (0) (0)) = (bk (4503599627370491/4503599627370496) (-(7177611906121725/151115727451828646838272)) (1)) :=
  addM_bk R (by norm_num [rn0, f15, f10, f9, f8]) (by norm_num [rn0, f15, f10, f9, f8]) (by norm_num [rn0, f15, f10, f9, f8]) (by norm_num [rn0, f15, f10, f9, f8])
theorem st19 (R : Round) : subM R (bk (4503599627370491/4503599627370496) (-(7177611906121725/151115727451828646838272)) (1)) (bk (4503599627370491/4503599627370496) (-(7177611906121725/151115727451828646838272)) (1)) = (bk (0) (0) (0)) :=
  subM_bk R (by norm_num [rn0]) (by norm_num [rn0]) (by norm_num [rn0]) (by norm_num [rn0])
theorem f28 (R : Round) : R.rn (6004799503160661/36028797018963968) = 6004799503160661/36028797018963968 :=
  rn_of_F R ⟨6004799503160661, -55, by norm_num, by norm_num, by norm_num⟩
theorem st20 (R : Round) : smulM R (6004799503160661/36028797018963968) (bk (1) (0) (1)) = (bk (6004799503160661/36028797018963968) (0) (6004799503160661/36028797018963968)) :=
  smulM_bk R (by norm_num [rn0, f28]) (by norm_num [rn0, f28]) (by norm_num [rn0, f28]) (by norm_num [rn0, f28])
theorem st21 (R : Round) : addM R (bk (6004799503160661/36028797018963968) (0) (6004799503160661/36028797018963968)) (bk (0) (0) (0)) = (bk (6004799503160661/36028797018963968) (0) (6004799503160661/36028797018963968)) :=
  addM_bk R (by norm_num [rn0, f28]) (by norm_num [rn0, f28]) (by norm_num [rn0, f28]) (by norm_num [rn0, f28])
theorem f29 (R : Round) : R.rn (-(2601/70368744177664)) = -(2601/70368744177664) :=
  rn_of_F R ⟨-2601, -46, by norm_num, by norm_num, by norm_num⟩
theorem st22 (F : Fpu) : mulM F (bk (0) (51/8388608) (0)) (bk (0) (51/8388608) (0)) = (bk (-(2601/70368744177664)) (0) (0)) :=
  mulM_bk F (by norm_num [rn0 F.toRound, f29 F.toRound]) (by norm_num [rn0 F.toRound, f29 F.toRound]) (by norm_num [rn0 F.toRound, f29 F.toRound]) (by norm_num [rn0 F.toRound, f29 F.toRound]) (by norm_num [rn0 F.toRound, f29 F.toRound])
theorem f30 (R : Round) : R.rn (1/16384) = 1/16384 :=
  rn_of_F R ⟨1, -14, by norm_num, by norm_num, by norm_num⟩
theorem sc_dt2 (R : Round) : R.rn (1/128 * (1/128)) = 1/16384 := by
  norm_num [rn0, f30]
theorem f31 (R : Round) : R.rn (1/2097152) = 1/2097152 :=
  rn_of_F R ⟨1, -21, by norm_num, by norm_num, by norm_num⟩
theorem sc_dt3 (R : Round) : R.rn (1/16384 * (1/128)) = 1/2097152 := by
  norm_num [rn0, f31]
theorem sc_t2 (R : Round) : R.rn (51/8388608 * (51/8388608)) = 2601/70368744177664 := by
  norm_num [rn0, f1]
theorem f32 (R : Round) : R.rn (132651/590295810358705651712) = 132651/590295810358705651712 :=
  rn_of_F R ⟨132651, -69, by norm_num, by norm_num, by norm_num⟩
theorem sc_t3 (R : Round) : R.rn (2601/70368744177664 * (51/8388608)) = 132651/590295810358705651712 := by
  norm_num [rn0, f32]
theorem f33 (R : Round) : R.rn (6765201/4951760157141521099596496896) = 6765201/4951760157141521099596496896 :=
  rn_of_F R ⟨6765201, -92, by norm_num, by norm_num, by norm_num⟩
theorem sc_t4 (R : Round) : R.rn (132651/590295810358705651712 * (51/8388608)) = 6765201/4951760157141521099596496896 := by
  norm_num [rn0, f33]
theorem f34 (R : Round) : R.rn (345025251/41538374868278621028243970633760768) = 345025251/41538374868278621028243970633760768 :=
  rn_of_F R ⟨345025251, -115, by norm_num, by norm_num, by norm_num⟩
theorem sc_t5 (R : Round) : R.rn (6765201/4951760157141521099596496896 * (51/8388608)) = 345025251/41538374868278621028243970633760768 := by
  norm_num [rn0, f34]
theorem f35 (R : Round) : R.rn (17596287801/348449143727040986586495598010130648530944) = 17596287801/348449143727040986586495598010130648530944 :=
  rn_of_F R ⟨17596287801, -138, by norm_num, by norm_num, by norm_num⟩
theorem sc_t6 (R : Round) : R.rn (345025251/41538374868278621028243970633760768 * (51/8388608)) = 17596287801/348449143727040986586495598010130648530944 := by
  norm_num [rn0, f35]
theorem f36 (R : Round) : R.rn (897410677851/2923003274661805836407369665432566039311865085952) = 897410677851/2923003274661805836407369665432566039311865085952 :=
  rn_of_F R ⟨897410677851, -161, by norm_num, by norm_num, by norm_num⟩
theorem sc_t7 (R : Round) : R.rn (17596287801/348449143727040986586495598010130648530944 * (51/8388608)) = 897410677851/2923003274661805836407369665432566039311865085952 := by
  norm_num [rn0, f36]
theorem sc_x (R : Round) : R.rn (51/8388608 * (1/128)) = 51/1073741824 := by
  norm_num [rn0, f0]
theorem f37 (R : Round) : R.rn (51/536870912) = 51/536870912 :=
  rn_of_F R ⟨51, -29, by norm_num, by norm_num, by norm_num⟩
theorem sc_2x (R : Round) : R.rn (2 * (51/1073741824)) = 51/536870912 := by
  norm_num [rn0, f37]
theorem sc_x3 (R : Round) : R.rn (2601/1152921504606846976 * (51/1073741824)) = 132651/1237940039285380274899124224 := by
  norm_num [rn0, f22]
theorem f38 (R : Round) : R.rn (229683580995895041/4835703278458516698824704) = 897201488265215/18889465931478580854784 := by
  have h := rn_eq R (x := 229683580995895041/4835703278458516698824704) (n := 7177611906121720) (e := -77) (by norm_num) (by norm_num) (by norm_num) (by rw [abs_lt]; norm_num)
  rw [h]; norm_num
theorem sc_xc (R : Round) : R.rn (51/1073741824 * (4503599627370491/4503599627370496)) = 897201488265215/18889465931478580854784 := by
  norm_num [rn0, f38]
theorem f39 (R : Round) : R.rn (366058207212207975/162259276829213363391578010288128) = 2859829743845375/1267650600228229401496703205376 := by
  have h := rn_eq R (x := 366058207212207975/162259276829213363391578010288128) (n := 5719659487690750) (e := -101) (by norm_num) (by norm_num) (by norm_num) (by rw [abs_lt]; norm_num)
  rw [h]; norm_num
theorem sc_xs (R : Round) : R.rn (51/1073741824 * (7177611906121725/151115727451828646838272)) = 2859829743845375/1267650600228229401496703205376 := by
  norm_num [rn0, f39]
theorem f40 (R : Round) : R.rn (4503599627370491/2251799813685248) = 4503599627370491/2251799813685248 :=
  rn_of_F R ⟨4503599627370491, -51, by norm_num, by norm_num, by norm_num⟩
theorem f41 (R : Round) : R.rn (2535301200456458848073383149567/1267650600228229401496703205376) = 2 := by
  have h := rn_eq R (x := 2535301200456458848073383149567/1267650600228229401496703205376) (n := 9007199254740992) (e := -52) (by norm_num) (by norm_num) (by norm_num) (by rw [abs_lt]; norm_num)
  rw [h]; norm_num
theorem sc_k1 (R : Round) : R.rn (R.rn (R.rn (2859829743845375/1267650600228229401496703205376 + R.rn (2 * (4503599627370491/4503599627370496))) - 2) / (6765201/4951760157141521099596496896)) = 0 := by
  norm_num [rn0, f40, f41]
theorem f42 (R : Round) : R.rn (153/536870912) = 153/536870912 :=
  rn_of_F R ⟨153, -29, by norm_num, by norm_num, by norm_num⟩
theorem f43 (R : Round) : R.rn (7177611906121725/18889465931478580854784) = 7177611906121725/18889465931478580854784 :=
  rn_of_F R ⟨7177611906121725, -74, by norm_num, by norm_num, by norm_num⟩
theorem f44 (R : Round) : R.rn (-(1794402976530429/18889465931478580854784)) = -(1794402976530429/18889465931478580854784) :=
  rn_of_F R ⟨-1794402976530429, -74, by norm_num, by norm_num, by norm_num⟩
theorem f45 (R : Round) : R.rn (1/75557863725914323419136) = 1/75557863725914323419136 :=
  rn_of_F R ⟨1, -76, by norm_num, by norm_num, by norm_num⟩
theorem f46 (R : Round) : R.rn (345025251/5192296858534827628530496329220096) = 345025251/5192296858534827628530496329220096 :=
  rn_of_F R ⟨345025251, -112, by norm_num, by norm_num, by norm_num⟩
theorem f47 (R : Round) : R.rn (68719476736/345025251) = 7007752714392659/35184372088832 := by
  have h := rn_eq R (x := 68719476736/345025251) (n := 7007752714392659) (e := -45) (by norm_num) (by norm_num) (by norm_num) (by rw [abs_lt]; norm_num)
  rw [h]; norm_num
theorem sc_k2 (R : Round) : R.rn (R.rn (R.rn (R.rn (6 * (51/1073741824)) - R.rn (8 * (7177611906121725/151115727451828646838272))) + (7177611906121717/75557863725914323419136)) / R.rn (8 * (345025251/41538374868278621028243970633760768))) = 7007752714392659/35184372088832 := by
  norm_num [rn0, f42, f43, f44, f45, f46, f47]
theorem f48 (R : Round) : R.rn (2601/576460752303423488) = 2601/576460752303423488 :=
  rn_of_F R ⟨2601, -59, by norm_num, by norm_num, by norm_num⟩
theorem f49 (R : Round) : R.rn (2859829743845375/158456325028528675187087900672) = 2859829743845375/158456325028528675187087900672 :=
  rn_of_F R ⟨2859829743845375, -97, by norm_num, by norm_num, by norm_num⟩
theorem f50 (R : Round) : R.rn (3574787179806719/158456325028528675187087900672) = 3574787179806719/158456325028528675187087900672 :=
  rn_of_F R ⟨3574787179806719, -97, by norm_num, by norm_num, by norm_num⟩
theorem f51 (R : Round) : R.rn (4503599627370491/281474976710656) = 4503599627370491/281474976710656 :=
  rn_of_F R ⟨4503599627370491, -48, by norm_num, by norm_num, by norm_num⟩
theorem f52 (R : Round) : R.rn (2535301200456459563030819110911/158456325028528675187087900672) = 4503599627370497/281474976710656 := by
  have h := rn_eq R (x := 2535301200456459563030819110911/158456325028528675187087900672) (n := 4503599627370497) (e := -48) (by norm_num) (by norm_num) (by norm_num) (by rw [abs_lt]; norm_num)
  rw [h]; norm_num
theorem f53 (R : Round) : R.rn (153122387330596855/9007199254740992) = 17 := by
  have h := rn_eq R (x := 153122387330596855/9007199254740992) (n := 4785074604081152) (e := -48) (by norm_num) (by norm_num) (by norm_num) (by rw [abs_lt]; norm_num)
  rw [h]; norm_num
theorem f54 (R : Round) : R.rn (17596287801/43556142965880123323311949751266331066368) = 17596287801/43556142965880123323311949751266331066368 :=
  rn_of_F R ⟨17596287801, -135, by norm_num, by norm_num, by norm_num⟩
theorem sc_k3 (R : Round) : R.rn (R.rn (R.rn (R.rn (R.rn (R.rn (2 * (2601/1152921504606846976)) + R.rn (8 * (2859829743845375/1267650600228229401496703205376))) + R.rn (16 * (4503599627370491/4503599627370496))) + (9007199254740951/9007199254740992)) - 17) / R.rn (8 * (17596287801/348449143727040986586495598010130648530944))) = 0 := by
  norm_num [rn0, f48, f49, f50, f51, f52, f53, f54]
theorem f55 (R : Round) : R.rn (352793980409695307307/1237940039285380274899124224) = 2691604464795649/9444732965739290427392 := by
  have h := rn_eq R (x := 352793980409695307307/1237940039285380274899124224) (n := 5383208929591298) (e := -74) (by norm_num) (by norm_num) (by norm_num) (by rw [abs_lt]; norm_num)
  rw [h]; norm_num
theorem f56 (R : Round) : R.rn (21532835718365175/37778931862957161709568) = 2691604464795647/4722366482869645213696 := by
  have h := rn_eq R (x := 21532835718365175/37778931862957161709568) (n := 5383208929591294) (e := -73) (by norm_num) (by norm_num) (by norm_num) (by rw [abs_lt]; norm_num)
  rw [h]; norm_num
theorem f57 (R : Round) : R.rn (-(2691604464795645/9444732965739290427392)) = -(2691604464795645/9444732965739290427392) :=
  rn_of_F R ⟨-2691604464795645, -73, by norm_num, by norm_num, by norm_num⟩
theorem f58 (R : Round) : R.rn (2691604464795645/9444732965739290427392) = 2691604464795645/9444732965739290427392 :=
  rn_of_F R ⟨2691604464795645, -73, by norm_num, by norm_num, by norm_num⟩
theorem f59 (R : Round) : R.rn (1035075753/20769187434139310514121985316880384) = 1035075753/20769187434139310514121985316880384 :=
  rn_of_F R ⟨1035075753, -114, by norm_num, by norm_num, by norm_num⟩
theorem sc_k4 (R : Round) : R.rn (R.rn (R.rn (R.rn (132651/1237940039285380274899124224 + R.rn (6 * (51/1073741824))) - R.rn (12 * (7177611906121725/151115727451828646838272))) + R.rn (6 * (897201488265215/18889465931478580854784))) / R.rn (6 * (345025251/41538374868278621028243970633760768))) = 0 := by
  norm_num [rn0, f42, f55, f56, f57, f58, f59]
theorem f60 (R : Round) : R.rn (7803/576460752303423488) = 7803/576460752303423488 :=
  rn_of_F R ⟨7803, -59, by norm_num, by norm_num, by norm_num⟩
theorem f61 (R : Round) : R.rn (9223372036854773371/576460752303423488) = 4503599627370495/281474976710656 := by
  have h := rn_eq R (x := 9223372036854773371/576460752303423488) (n := 9007199254740990) (e := -49) (by norm_num) (by norm_num) (by norm_num) (by rw [abs_lt]; norm_num)
  rw [h]; norm_num
theorem f62 (R : Round) : R.rn (135107988821114889/9007199254740992) = 8444249301319681/562949953421312 := by
  have h := rn_eq R (x := 135107988821114889/9007199254740992) (n := 8444249301319681) (e := -49) (by norm_num) (by norm_num) (by norm_num) (by rw [abs_lt]; norm_num)
  rw [h]; norm_num
theorem f63 (R : Round) : R.rn (1/562949953421312) = 1/562949953421312 :=
  rn_of_F R ⟨1, -49, by norm_num, by norm_num, by norm_num⟩
theorem f64 (R : Round) : R.rn (77371252455336267181195264/17596287801) = 4397021310991472 := by
  have h := rn_eq R (x := 77371252455336267181195264/17596287801) (n := 8794042621982944) (e := -1) (by norm_num) (by norm_num) (by norm_num) (by rw [abs_lt]; norm_num)
  rw [h]; norm_num
theorem sc_k5 (R : Round) : R.rn (R.rn (R.rn (R.rn (R.rn (6 * (2601/1152921504606846976)) + R.rn (16 * (4503599627370491/4503599627370496))) - (9007199254740951/9007199254740992)) - 15) / R.rn (8 * (17596287801/348449143727040986586495598010130648530944))) = 4397021310991472 := by
  norm_num [rn0, f60, f51, f61, f62, f63, f54, f64]
theorem f65 (R : Round) : R.rn (132651/309485009821345068724781056) = 132651/309485009821345068724781056 :=
  rn_of_F R ⟨132651, -88, by norm_num, by norm_num, by norm_num⟩
theorem f66 (R : Round) : R.rn (88198495102423926315/309485009821345068724781056) = 672901116198913/2361183241434822606848 := by
  have h := rn_eq R (x := 88198495102423926315/309485009821345068724781056) (n := 5383208929591304) (e := -74) (by norm_num) (by norm_num) (by norm_num) (by rw [abs_lt]; norm_num)
  rw [h]; norm_num
theorem f67 (R : Round) : R.rn (21532835718365175/18889465931478580854784) = 2691604464795647/2361183241434822606848 := by
  have h := rn_eq R (x := 21532835718365175/18889465931478580854784) (n := 5383208929591294) (e := -72) (by norm_num) (by norm_num) (by norm_num) (by rw [abs_lt]; norm_num)
  rw [h]; norm_num
theorem f68 (R : Round) : R.rn (-(1009351674298367/1180591620717411303424)) = -(1009351674298367/1180591620717411303424) :=
  rn_of_F R ⟨-1009351674298367, -70, by norm_num, by norm_num, by norm_num⟩
theorem f69 (R : Round) : R.rn (21532835718365151/75557863725914323419136) = 672901116198911/2361183241434822606848 := by
  have h := rn_eq R (x := 21532835718365151/75557863725914323419136) (n := 5383208929591288) (e := -74) (by norm_num) (by norm_num) (by norm_num) (by rw [abs_lt]; norm_num)
  rw [h]; norm_num
theorem f70 (R : Round) : R.rn (-(2691604464795645/2361183241434822606848)) = -(2691604464795645/2361183241434822606848) :=
  rn_of_F R ⟨-2691604464795645, -71, by norm_num, by norm_num, by norm_num⟩
theorem f71 (R : Round) : R.rn (2691604464795645/2361183241434822606848) = 2691604464795645/2361183241434822606848 :=
  rn_of_F R ⟨2691604464795645, -71, by norm_num, by norm_num, by norm_num⟩
theorem f72 (R : Round) : R.rn (2692232033553/365375409332725729550921208179070754913983135744) = 2692232033553/365375409332725729550921208179070754913983135744 :=
  rn_of_F R ⟨2692232033553, -158, by norm_num, by norm_num, by norm_num⟩
theorem sc_k6 (R : Round) : R.rn (R.rn (R.rn (R.rn (R.rn (R.rn (4 * (132651/1237940039285380274899124224)) + R.rn (6 * (51/1073741824))) - R.rn (24 * (7177611906121725/151115727451828646838272))) - R.rn (3 * (7177611906121717/75557863725914323419136))) + R.rn (24 * (897201488265215/18889465931478580854784))) / R.rn (24 * (897410677851/2923003274661805836407369665432566039311865085952))) = 0 := by
  norm_num [rn0, f65, f42, f66, f67, f68, f69, f70, f71, f72]
theorem f73 (R : Round) : R.rn (-(234187180623265779/144115188075855872)) = -(13/8) := by
  have h := rn_eq R (x := -(234187180623265779/144115188075855872)) (n := -7318349394477056) (e := -52) (by norm_num) (by norm_num) (by norm_num) (by rw [abs_lt]; norm_num)
  rw [h]; norm_num
theorem f74 (R : Round) : R.rn (-(13/8)) = -(13/8) :=
  rn_of_F R ⟨-13, -3, by norm_num, by norm_num, by norm_num⟩
theorem f75 (R : Round) : R.rn (234187180623265779/144115188075855872) = 13/8 := by
  have h := rn_eq R (x := 234187180623265779/144115188075855872) (n := 7318349394477056) (e := -52) (by norm_num) (by norm_num) (by norm_num) (by rw [abs_lt]; norm_num)
  rw [h]; norm_num
theorem f76 (R : Round) : R.rn (13/8) = 13/8 :=
  rn_of_F R ⟨13, -3, by norm_num, by norm_num, by norm_num⟩
theorem st23 (F : Fpu) : mulM F (bk (0) (39/4) (0)) (bk (6004799503160661/36028797018963968) (0) (6004799503160661/36028797018963968)) = (bk (0) (13/8) (0)) :=
  mulM_bk F (by norm_num [rn0 F.toRound, f73 F.toRound, f74 F.toRound, f75 F.toRound, f76 F.toRound]) (by norm_num [rn0 F.toRound, f73 F.toRound, f74 F.toRound, f75 F.toRound, f76 F.toRound]) (by norm_num [rn0 F.toRound, f73 F.toRound, f74 F.toRound, f75 F.toRound, f76 F.toRound]) (by norm_num [rn0 F.toRound, f73 F.toRound, f74 F.toRound, f75 F.toRound, f76 F.toRound]) (by norm_num [rn0 F.toRound, f73 F.toRound, f74 F.toRound, f75 F.toRound, f76 F.toRound])
theorem f77 (R : Round) : R.rn (-(13/16777216)) = -(13/16777216) :=
  rn_of_F R ⟨-13, -24, by norm_num, by norm_num, by norm_num⟩
theorem f78 (R : Round) : R.rn (13/16777216) = 13/16777216 :=
  rn_of_F R ⟨13, -24, by norm_num, by norm_num, by norm_num⟩
theorem st24 (R : Round) : smulM R (1/2097152) (bk (0) (13/8) (0)) = (bk (0) (13/16777216) (0)) :=
  smulM_bk R (by norm_num [rn0, f77, f78]) (by norm_num [rn0, f77, f78]) (by norm_num [rn0, f77, f78]) (by norm_num [rn0, f77, f78])
theorem st25 (R : Round) : smulM R (0) (bk (0) (51/8388608) (0)) = (bk (0) (0) (0)) :=
  smulM_bk R (by norm_num [rn0]) (by norm_num [rn0]) (by norm_num [rn0]) (by norm_num [rn0])
theorem st26 (F : Fpu) : mulM F (bk (0) (0) (0)) (bk (0) (39/4) (0)) = (bk (0) (0) (0)) :=
  mulM_bk F (by norm_num [rn0 F.toRound]) (by norm_num [rn0 F.toRound]) (by norm_num [rn0 F.toRound]) (by norm_num [rn0 F.toRound]) (by norm_num [rn0 F.toRound])
theorem st27 (R : Round) : subM R (bk (0) (13/16777216) (0)) (bk (0) (0) (0)) = (bk (0) (13/16777216) (0)) :=
  subM_bk R (by norm_num [rn0, f77, f78]) (by norm_num [rn0, f77, f78]) (by norm_num [rn0, f77, f78]) (by norm_num [rn0, f77, f78])
theorem f79 (R : Round) : R.rn (-(357395388434025609/295147905179352825856)) = -(2792151472140825/2305843009213693952) := by
  have h := rn_eq R (x := -(357395388434025609/295147905179352825856)) (n := -5584302944281650) (e := -62) (by norm_num) (by norm_num) (by norm_num) (by rw [abs_lt]; norm_num)
  rw [h]; norm_num
theorem f80 (R : Round) : R.rn (357395388434025609/295147905179352825856) = 2792151472140825/2305843009213693952 := by
  have h := rn_eq R (x := 357395388434025609/295147905179352825856) (n := 5584302944281650) (e := -62) (by norm_num) (by norm_num) (by norm_num) (by rw [abs_lt]; norm_num)
  rw [h]; norm_num
theorem st28 (R : Round) : smulM R (7007752714392659/35184372088832) (bk (0) (51/8388608) (0)) = (bk (0) (2792151472140825/2305843009213693952) (0)) :=
  smulM_bk R (by norm_num [rn0, f79, f80]) (by norm_num [rn0, f79, f80]) (by norm_num [rn0, f79, f80]) (by norm_num [rn0, f79, f80])
theorem f81 (R : Round) : R.rn (-(108893907413492175/9223372036854775808)) = -(6805869213343261/576460752303423488) := by
  have h := rn_eq R (x := -(108893907413492175/9223372036854775808)) (n := -6805869213343261) (e := -59) (by norm_num) (by norm_num) (by norm_num) (by rw [abs_lt]; norm_num)
  rw [h]; norm_num
theorem f82 (R : Round) : R.rn (-(6805869213343261/576460752303423488)) = -(6805869213343261/576460752303423488) :=
  rn_of_F R ⟨-6805869213343261, -59, by norm_num, by norm_num, by norm_num⟩
theorem st29 (F : Fpu) : mulM F (bk (0) (2792151472140825/2305843009213693952) (0)) (bk (0) (39/4) (0)) = (bk (-(6805869213343261/576460752303423488)) (0) (0)) :=
  mulM_bk F (by norm_num [rn0 F.toRound, f81 F.toRound, f82 F.toRound]) (by norm_num [rn0 F.toRound, f81 F.toRound, f82 F.toRound]) (by norm_num [rn0 F.toRound, f81 F.toRound, f82 F.toRound]) (by norm_num [rn0 F.toRound, f81 F.toRound, f82 F.toRound]) (by norm_num [rn0 F.toRound, f81 F.toRound, f82 F.toRound])
theorem f83 (R : Round) : R.rn (347099329880506311/4835703278458516698824704) = 5423427029382911/75557863725914323419136 := by
  have h := rn_eq R (x := 347099329880506311/4835703278458516698824704) (n := 5423427029382911) (e := -76) (by norm_num) (by norm_num) (by norm_num) (by rw [abs_lt]; norm_num)
  rw [h]; norm_num
theorem f84 (R : Round) : R.rn (5423427029382911/75557863725914323419136) = 5423427029382911/75557863725914323419136 :=
  rn_of_F R ⟨5423427029382911, -76, by norm_num, by norm_num, by norm_num⟩
theorem f85 (R : Round) : R.rn (-(347099329880506311/4835703278458516698824704)) = -(5423427029382911/75557863725914323419136) := by
  have h := rn_eq R (x := -(347099329880506311/4835703278458516698824704)) (n := -5423427029382911) (e := -76) (by norm_num) (by norm_num) (by norm_num) (by rw [abs_lt]; norm_num)
  rw [h]; norm_num
theorem f86 (R : Round) : R.rn (-(5423427029382911/75557863725914323419136)) = -(5423427029382911/75557863725914323419136) :=
  rn_of_F R ⟨-5423427029382911, -76, by norm_num, by norm_num, by norm_num⟩
theorem st30 (F : Fpu) : mulM F (bk (-(6805869213343261/576460752303423488)) (0) (0)) (bk (0) (51/8388608) (0)) = (bk (0) (-(5423427029382911/75557863725914323419136)) (0)) :=
  mulM_bk F (by norm_num [rn0 F.toRound, f83 F.toRound, f84 F.toRound, f85 F.toRound, f86 F.toRound]) (by norm_num [rn0 F.toRound, f83 F.toRound, f84 F.toRound, f85 F.toRound, f86 F.toRound]) (by norm_num [rn0 F.toRound, f83 F.toRound, f84 F.toRound, f85 F.toRound, f86 F.toRound]) (by norm_num [rn0 F.toRound, f83 F.toRound, f84 F.toRound, f85 F.toRound, f86 F.toRound]) (by norm_num [rn0 F.toRound, f83 F.toRound, f84 F.toRound, f85 F.toRound, f86 F.toRound])
theorem f87 (R : Round) : R.rn (-(63970222185199359/75557863725914323419136)) = -(249883680410935/295147905179352825856) := by
  have h := rn_eq R (x := -(63970222185199359/75557863725914323419136)) (n := -7996277773149920) (e := -73) (by norm_num) (by norm_num) (by norm_num) (by rw [abs_lt]; norm_num)
  rw [h]; norm_num
theorem f88 (R : Round) : R.rn (63970222185199359/75557863725914323419136) = 249883680410935/295147905179352825856 := by
  have h := rn_eq R (x := 63970222185199359/75557863725914323419136) (n := 7996277773149920) (e := -73) (by norm_num) (by norm_num) (by norm_num) (by rw [abs_lt]; norm_num)
  rw [h]; norm_num
theorem st31 (R : Round) : subM R (bk (0) (13/16777216) (0)) (bk (0) (-(5423427029382911/75557863725914323419136)) (0)) = (bk (0) (249883680410935/295147905179352825856) (0)) :=
  subM_bk R (by norm_num [rn0, f87, f88]) (by norm_num [rn0, f87, f88]) (by norm_num [rn0, f87, f88]) (by norm_num [rn0, f87, f88])
theorem st32 (R : Round) : smulM R (0) (bk (0) (51/8388608) (0)) = (bk (0) (0) (0)) :=
  smulM_bk R (by norm_num [rn0]) (by norm_num [rn0]) (by norm_num [rn0]) (by norm_num [rn0])
theorem st33 (F : Fpu) : mulM F (bk (0) (0) (0)) (bk (0) (39/4) (0)) = (bk (0) (0) (0)) :=
  mulM_bk F (by norm_num [rn0 F.toRound]) (by norm_num [rn0 F.toRound]) (by norm_num [rn0 F.toRound]) (by norm_num [rn0 F.toRound]) (by norm_num [rn0 F.toRound])
theorem st34 (F : Fpu) : mulM F (bk (0) (0) (0)) (bk (-(2601/70368744177664)) (0) (0)) = (bk (0) (0) (0)) :=
  mulM_bk F (by norm_num [rn0 F.toRound]) (by norm_num [rn0 F.toRound]) (by norm_num [rn0 F.toRound]) (by norm_num [rn0 F.toRound]) (by norm_num [rn0 F.toRound])
theorem f89 (R : Round) : R.rn (-(249883680410935/295147905179352825856)) = -(249883680410935/295147905179352825856) :=
  rn_of_F R ⟨-249883680410935, -68, by norm_num, by norm_num, by norm_num⟩
theorem f90 (R : Round) : R.rn (249883680410935/295147905179352825856) = 249883680410935/295147905179352825856 :=
  rn_of_F R ⟨249883680410935, -68, by norm_num, by norm_num, by norm_num⟩
theorem st35 (R : Round) : subM R (bk (0) (249883680410935/295147905179352825856) (0)) (bk (0) (0) (0)) = (bk (0) (249883680410935/295147905179352825856) (0)) :=
  subM_bk R (by norm_num [rn0, f89, f90]) (by norm_num [rn0, f89, f90]) (by norm_num [rn0, f89, f90]) (by norm_num [rn0, f89, f90])
theorem st36 (R : Round) : smulM R (0) (bk (-(2601/70368744177664)) (0) (0)) = (bk (0) (0) (0)) :=
  smulM_bk R (by norm_num [rn0]) (by norm_num [rn0]) (by norm_num [rn0]) (by norm_num [rn0])
theorem st37 (F : Fpu) : mulM F (bk (0) (0) (0)) (bk (0) (39/4) (0)) = (bk (0) (0) (0)) :=
  mulM_bk F (by norm_num [rn0 F.toRound]) (by norm_num [rn0 F.toRound]) (by norm_num [rn0 F.toRound]) (by norm_num [rn0 F.toRound]) (by norm_num [rn0 F.toRound])
theorem st38 (R : Round) : addM R (bk (0) (249883680410935/295147905179352825856) (0)) (bk (0) (0) (0)) = (bk (0) (249883680410935/295147905179352825856) (0)) :=
  addM_bk R (by norm_num [rn0, f89, f90]) (by norm_num [rn0, f89, f90]) (by norm_num [rn0, f89, f90]) (by norm_num [rn0, f89, f90])
theorem f91 (R : Round) : R.rn (-(714790776868051167/4398046511104)) = -(2792151472140825/17179869184) := by
  have h := rn_eq R (x := -(714790776868051167/4398046511104)) (n := -5584302944281650) (e := -35) (by norm_num) (by norm_num) (by norm_num) (by rw [abs_lt]; norm_num)
  rw [h]; norm_num
theorem st39 (R : Round) : smulM R (4397021310991472) (bk (-(2601/70368744177664)) (0) (0)) = (bk (-(2792151472140825/17179869184)) (0) (0)) :=
  smulM_bk R (by norm_num [rn0, f91]) (by norm_num [rn0, f91]) (by norm_num [rn0, f91]) (by norm_num [rn0, f91])
theorem f92 (R : Round) : R.rn (108893907413492175/68719476736) = 6805869213343261/4294967296 := by
  have h := rn_eq R (x := 108893907413492175/68719476736) (n := 6805869213343261) (e := -32) (by norm_num) (by norm_num) (by norm_num) (by rw [abs_lt]; norm_num)
  rw [h]; norm_num
theorem f93 (R : Round) : R.rn (6805869213343261/4294967296) = 6805869213343261/4294967296 :=
  rn_of_F R ⟨6805869213343261, -32, by norm_num, by norm_num, by norm_num⟩
theorem f94 (R : Round) : R.rn (-(108893907413492175/68719476736)) = -(6805869213343261/4294967296) := by
  have h := rn_eq R (x := -(108893907413492175/68719476736)) (n := -6805869213343261) (e := -32) (by norm_num) (by norm_num) (by norm_num) (by rw [abs_lt]; norm_num)
  rw [h]; norm_num
theorem f95 (R : Round) : R.rn (-(6805869213343261/4294967296)) = -(6805869213343261/4294967296) :=
  rn_of_F R ⟨-6805869213343261, -32, by norm_num, by norm_num, by norm_num⟩
theorem st40 (F : Fpu) : mulM F (bk (-(2792151472140825/17179869184)) (0) (0)) (bk (0) (39/4) (0)) = (bk (0) (-(6805869213343261/4294967296)) (0)) :=
  mulM_bk F (by norm_num [rn0 F.toRound, f92 F.toRound, f93 F.toRound, f94 F.toRound, f95 F.toRound]) (by norm_num [rn0 F.toRound, f92 F.toRound, f93 F.toRound, f94 F.toRound, f95 F.toRound]) (by norm_num [rn0 F.toRound, f92 F.toRound, f93 F.toRound, f94 F.toRound, f95 F.toRound]) (by norm_num [rn0 F.toRound, f92 F.toRound, f93 F.toRound, f94 F.toRound, f95 F.toRound]) (by norm_num [rn0 F.toRound, f92 F.toRound, f93 F.toRound, f94 F.toRound, f95 F.toRound])
theorem f96 (R : Round) : R.rn (347099329880506311/36028797018963968) = 5423427029382911/562949953421312 := by
  have h := rn_eq R (x := 347099329880506311/36028797018963968) (n := 5423427029382911) (e := -49) (by norm_num) (by norm_num) (by norm_num) (by rw [abs_lt]; norm_num)
  rw [h]; norm_num
theorem f97 (R : Round) : R.rn (5423427029382911/562949953421312) = 5423427029382911/562949953421312 :=
  rn_of_F R ⟨5423427029382911, -49, by norm_num, by norm_num, by norm_num⟩
theorem st41 (F : Fpu) : mulM F (bk (0) (-(6805869213343261/4294967296)) (0)) (bk (0) (51/8388608) (0)) = (bk (5423427029382911/562949953421312) (0) (0)) :=
  mulM_bk F (by norm_num [rn0 F.toRound, f96 F.toRound, f97 F.toRound]) (by norm_num [rn0 F.toRound, f96 F.toRound, f97 F.toRound]) (by norm_num [rn0 F.toRound, f96 F.toRound, f97 F.toRound]) (by norm_num [rn0 F.toRound, f96 F.toRound, f97 F.toRound]) (by norm_num [rn0 F.toRound, f96 F.toRound, f97 F.toRound])
theorem f98 (R : Round) : R.rn (-(5423427029382911/562949953421312)) = -(5423427029382911/562949953421312) :=
  rn_of_F R ⟨-5423427029382911, -49, by norm_num, by norm_num, by norm_num⟩
theorem st42 (R : Round) : subM R (bk (0) (249883680410935/295147905179352825856) (0)) (bk (5423427029382911/562949953421312) (0) (0)) = (bk (-(5423427029382911/562949953421312)) (249883680410935/295147905179352825856) (0)) :=
  subM_bk R (by norm_num [rn0, f98, f89, f90]) (by norm_num [rn0, f98, f89, f90]) (by norm_num [rn0, f98, f89, f90]) (by norm_num [rn0, f98, f89, f90])
theorem st43 (R : Round) : smulM R (0) (bk (-(2601/70368744177664)) (0) (0)) = (bk (0) (0) (0)) :=
  smulM_bk R (by norm_num [rn0]) (by norm_num [rn0]) (by norm_num [rn0]) (by norm_num [rn0])
theorem st44 (F : Fpu) : mulM F (bk (0) (0) (0)) (bk (0) (39/4) (0)) = (bk (0) (0) (0)) :=
  mulM_bk F (by norm_num [rn0 F.toRound]) (by norm_num [rn0 F.toRound]) (by norm_num [rn0 F.toRound]) (by norm_num [rn0 F.toRound]) (by norm_num [rn0 F.toRound])
theorem st45 (F : Fpu) : mulM F (bk (0) (0) (0)) (bk (-(2601/70368744177664)) (0) (0)) = (bk (0) (0) (0)) :=
  mulM_bk F (by norm_num [rn0 F.toRound]) (by norm_num [rn0 F.toRound]) (by norm_num [rn0 F.toRound]) (by norm_num [rn0 F.toRound]) (by norm_num [rn0 F.toRound])
theorem st46 (R : Round) : addM R (bk (-(5423427029382911/562949953421312)) (249883680410935/295147905179352825856) (0)) (bk (0) (0) (0)) = (bk (-(5423427029382911/562949953421312)) (249883680410935/295147905179352825856) (0)) :=
  addM_bk R (by norm_num [rn0, f98, f89, f90]) (by norm_num [rn0, f98, f89, f90]) (by norm_num [rn0, f98, f89, f90]) (by norm_num [rn0, f98, f89, f90])
theorem f99 (R : Round) : R.rn (-(24424943948599926923317301079301/2535301200456458802993406410752)) = -(5423427029382905/562949953421312) := by
  have h := rn_eq R (x := -(24424943948599926923317301079301/2535301200456458802993406410752)) (n := -5423427029382905) (e := -49) (by norm_num) (by norm_num) (by norm_num) (by rw [abs_lt]; norm_num)
  rw [h]; norm_num
theorem f100 (R : Round) : R.rn (1793568079663043119590131062875/44601490397061246283071436545296723011960832) = 796504231309855/19807040628566084398385987584 := by
  have h := rn_eq R (x := 1793568079663043119590131062875/44601490397061246283071436545296723011960832) (n := 6372033850478840) (e := -97) (by norm_num) (by norm_num) (by norm_num) (by rw [abs_lt]; norm_num)
  rw [h]; norm_num
theorem f101 (R : Round) : R.rn (-(190819874598436133330570907105/19807040628566084398385987584)) = -(2711713514691441/281474976710656) := by
  have h := rn_eq R (x := -(190819874598436133330570907105/19807040628566084398385987584)) (n := -5423427029382882) (e := -49) (by norm_num) (by norm_num) (by norm_num) (by rw [abs_lt]; norm_num)
  rw [h]; norm_num
theorem f102 (R : Round) : R.rn (-(2711713514691441/281474976710656)) = -(2711713514691441/281474976710656) :=
  rn_of_F R ⟨-2711713514691441, -48, by norm_num, by norm_num, by norm_num⟩
theorem f103 (R : Round) : R.rn (-(1125376049984653727360372719085/1329227995784915872903807060280344576)) = -(7996277773149911/9444732965739290427392) := by
  have h := rn_eq R (x := -(1125376049984653727360372719085/1329227995784915872903807060280344576)) (n := -7996277773149911) (e := -73) (by norm_num) (by norm_num) (by norm_num) (by rw [abs_lt]; norm_num)
  rw [h]; norm_num
theorem f104 (R : Round) : R.rn (-(38927254418081160481690000841475/85070591730234615865843651857942052864)) = -(8643586828079011/18889465931478580854784) := by
  have h := rn_eq R (x := -(38927254418081160481690000841475/85070591730234615865843651857942052864)) (n := -8643586828079011) (e := -74) (by norm_num) (by norm_num) (by norm_num) (by rw [abs_lt]; norm_num)
  rw [h]; norm_num
theorem f105 (R : Round) : R.rn (-(24636142374378833/18889465931478580854784)) = -(1539758898398677/1180591620717411303424) := by
  have h := rn_eq R (x := -(24636142374378833/18889465931478580854784)) (n := -6159035593594708) (e := -72) (by norm_num) (by norm_num) (by norm_num) (by rw [abs_lt]; norm_num)
  rw [h]; norm_num
theorem f106 (R : Round) : R.rn (-(1539758898398677/1180591620717411303424)) = -(1539758898398677/1180591620717411303424) :=
  rn_of_F R ⟨-1539758898398677, -70, by norm_num, by norm_num, by norm_num⟩
theorem f107 (R : Round) : R.rn (38927254418081160481690000841475/85070591730234615865843651857942052864) = 8643586828079011/18889465931478580854784 := by
  have h := rn_eq R (x := 38927254418081160481690000841475/85070591730234615865843651857942052864) (n := 8643586828079011) (e := -74) (by norm_num) (by norm_num) (by norm_num) (by rw [abs_lt]; norm_num)
  rw [h]; norm_num
theorem f108 (R : Round) : R.rn (1125376049984653727360372719085/1329227995784915872903807060280344576) = 7996277773149911/9444732965739290427392 := by
  have h := rn_eq R (x := 1125376049984653727360372719085/1329227995784915872903807060280344576) (n := 7996277773149911) (e := -73) (by norm_num) (by norm_num) (by norm_num) (by rw [abs_lt]; norm_num)
  rw [h]; norm_num
theorem f109 (R : Round) : R.rn (24636142374378833/18889465931478580854784) = 1539758898398677/1180591620717411303424 := by
  have h := rn_eq R (x := 24636142374378833/18889465931478580854784) (n := 6159035593594708) (e := -72) (by norm_num) (by norm_num) (by norm_num) (by rw [abs_lt]; norm_num)
  rw [h]; norm_num
theorem f110 (R : Round) : R.rn (1539758898398677/1180591620717411303424) = 1539758898398677/1180591620717411303424 :=
  rn_of_F R ⟨1539758898398677, -70, by norm_num, by norm_num, by norm_num⟩
theorem st47 (F : Fpu) : mulM F (bk (4503599627370491/4503599627370496) (-(7177611906121725/151115727451828646838272)) (1)) (bk (-(5423427029382911/562949953421312)) (249883680410935/295147905179352825856) (0)) = (bk (-(2711713514691441/281474976710656)) (1539758898398677/1180591620717411303424) (0)) :=
  mulM_bk F (by norm_num [rn0 F.toRound, f99 F.toRound, f100 F.toRound, f101 F.toRound, f102 F.toRound, f103 F.toRound, f104 F.toRound, f105 F.toRound, f106 F.toRound, f107 F.toRound, f108 F.toRound, f109 F.toRound, f110 F.toRound]) (by norm_num [rn0 F.toRound, f99 F.toRound, f100 F.toRound, f101 F.toRound, f102 F.toRound, f103 F.toRound, f104 F.toRound, f105 F.toRound, f106 F.toRound, f107 F.toRound, f108 F.toRound, f109 F.toRound, f110 F.toRound]) (by norm_num [rn0 F.toRound, f99 F.toRound, f100 F.toRound, f101 F.toRound, f102 F.toRound, f103 F.toRound, f104 F.toRound, f105 F.toRound, f106 F.toRound, f107 F.toRound, f108 F.toRound, f109 F.toRound, f110 F.toRound]) (by norm_num [rn0 F.toRound, f99 F.toRound, f100 F.toRound, f101 F.toRound, f102 F.toRound, f103 F.toRound, f104 F.toRound, f105 F.toRound, f106 F.toRound, f107 F.toRound, f108 F.toRound, f109 F.toRound, f110 F.toRound]) (by norm_num [rn0 F.toRound, f99 F.toRound, f100 F.toRound, f101 F.toRound, f102 F.toRound, f103 F.toRound, f104 F.toRound, f105 F.toRound, f106 F.toRound, f107 F.toRound, f108 F.toRound, f109 F.toRound, f110 F.toRound])

end Wit
end F64
end Drift
