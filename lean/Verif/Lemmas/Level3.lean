import Verif.Lemmas.Level2

/-!
# Calls on prices with an amount added
-/

set_option linter.unusedSectionVars false
set_option linter.unusedVariables false
set_option linter.unusedSimpArgs false

namespace Bta
open Line
open Spec (raised raiseIn levelOut levelParams)

variable {K : Type} [Field K] [LinearOrder K] [IsStrictOrderedRing K]

namespace Lv
variable {k : K}

theorem list1 (u : K) (l : Line (Ext K)) : List.zipWith raised [u] [l] = [raised u l] := rfl
theorem list2 (u v : K) (l m : Line (Ext K)) : List.zipWith raised [u, v] [l, m] = [raised u l, raised v m] := rfl
theorem list3 (u v w : K) (l m n : Line (Ext K)) :
    List.zipWith raised [u, v, w] [l, m, n] = [raised u l, raised v m, raised w n] := rfl
theorem half (k : K) : (k + k) / ((2 : ℚ) : K) = k := by push_cast; ring
/-- twice the close less high and low -/
theorem adv (k : K) : ((2 : ℚ) : K) * k - k - k = 0 := by push_cast; ring

theorem adxr (s m : MA (Ext K)) (ps q : ℕ) (t : Bool) (p : ℕ) (pr : Option ℕ) (h l c : Line (Ext K)) :
    Ind.adxr (s ps) m q t p pr (raised k h) (raised k l) (raised k c) = Ind.adxr (s ps) m q t p pr h l c := by
  unfold Ind.adxr; rw [adx]

theorem call (x : ℕ → Line (Ext K)) (c : Call (Ext K)) (ks : List K) (hc : levelOut k c = some ks) (hp : levelParams c) :
    c.run (fun i => raised (raiseIn k c i) (x i)) = (c.run x).map (List.zipWith raised ks) := by
  have o : ∀ {l m : List K}, some l = some m → l = m := fun h => Option.some.inj h
  have i0 : (if (0 : ℕ) = 0 then k else 0) = k := rfl
  have i1 : (if (1 : ℕ) = 0 then k else 0) = 0 := rfl
  have j0 : (if (0 : ℕ) ≤ 2 then k else 0) = k := rfl
  have j1 : (if (1 : ℕ) ≤ 2 then k else 0) = k := rfl
  have j2 : (if (2 : ℕ) ≤ 2 then k else 0) = k := rfl
  have j3 : (if (3 : ℕ) ≤ 2 then k else 0) = 0 := rfl
  cases c with
  | avg m p =>
    by_cases hs : m = .sumN
    · subst hs
      obtain rfl := o hc
      simp only [Call.run, raiseIn, Bta.one, oneE, twoE, threeE, Un.bind_map, Un.map_bind, Un.map_pure, Un.map_ok, bind_assoc, pure_bind, list1, list2, list3, zero, Avg.run, Ind.sumNMA, sumN]
      rfl
    · have hk : Spec.keepsLevel m p := by cases m <;> first | exact hp | exact absurd rfl hs
      have h := keeps m p hk
      have e : ks = [k] := by cases m <;> first | exact (o hc).symm | exact absurd rfl hs | exact hk.elim
      subst e
      simp only [Call.run, raiseIn, Bta.one, oneE, twoE, threeE, Un.bind_map, Un.map_bind, Un.map_pure, Un.map_ok, bind_assoc, pure_bind, list1, list2, list3, zero, h k]
  | add =>
    obtain rfl := o hc
    simp only [Call.run, raiseIn, Bta.one, oneE, twoE, threeE, Un.bind_map, Un.map_bind, Un.map_pure, Un.map_ok, bind_assoc, pure_bind, list1, list2, list3, zero, Ind.add, add]
  | sub =>
    obtain rfl := o hc
    simp only [Call.run, raiseIn, Bta.one, oneE, twoE, threeE, Un.bind_map, Un.map_bind, Un.map_pure, Un.map_ok, bind_assoc, pure_bind, list1, list2, list3, zero, Ind.sub, sub']
  | mult => exact absurd hc (by simp [levelOut])
  | div => exact absurd hc (by simp [levelOut])
  | max p =>
    obtain rfl := o hc
    simp only [Call.run, raiseIn, Bta.one, oneE, twoE, threeE, Un.bind_map, Un.map_bind, Un.map_pure, Un.map_ok, bind_assoc, pure_bind, list1, list2, list3, zero, highest]
  | min p =>
    obtain rfl := o hc
    simp only [Call.run, raiseIn, Bta.one, oneE, twoE, threeE, Un.bind_map, Un.map_bind, Un.map_pure, Un.map_ok, bind_assoc, pure_bind, list1, list2, list3, zero, lowest]
  | minmax p =>
    obtain rfl := o hc
    simp only [Call.run, raiseIn, Bta.one, oneE, twoE, threeE, Un.bind_map, Un.map_bind, Un.map_pure, Un.map_ok, bind_assoc, pure_bind, list1, list2, list3, zero, Ind.minmax, highest, lowest]
  | maxindex p =>
    obtain rfl := o hc
    simp only [Call.run, raiseIn, Bta.one, oneE, twoE, threeE, Un.bind_map, Un.map_bind, Un.map_pure, Un.map_ok, bind_assoc, pure_bind, list1, list2, list3, zero, Ind.maxindex, arg (Ext.up_argmax k), arg (Ext.up_argmin k), absIndex (Ext.up_argmax k), absIndex (Ext.up_argmin k)]
  | minindex p =>
    obtain rfl := o hc
    simp only [Call.run, raiseIn, Bta.one, oneE, twoE, threeE, Un.bind_map, Un.map_bind, Un.map_pure, Un.map_ok, bind_assoc, pure_bind, list1, list2, list3, zero, Ind.minindex, arg (Ext.up_argmax k), arg (Ext.up_argmin k), absIndex (Ext.up_argmax k), absIndex (Ext.up_argmin k)]
  | maxindexAbs p =>
    obtain rfl := o hc
    simp only [Call.run, raiseIn, Bta.one, oneE, twoE, threeE, Un.bind_map, Un.map_bind, Un.map_pure, Un.map_ok, bind_assoc, pure_bind, list1, list2, list3, zero, Ind.maxindexAbs, arg (Ext.up_argmax k), arg (Ext.up_argmin k), absIndex (Ext.up_argmax k), absIndex (Ext.up_argmin k)]
  | minindexAbs p =>
    obtain rfl := o hc
    simp only [Call.run, raiseIn, Bta.one, oneE, twoE, threeE, Un.bind_map, Un.map_bind, Un.map_pure, Un.map_ok, bind_assoc, pure_bind, list1, list2, list3, zero, Ind.minindexAbs, arg (Ext.up_argmax k), arg (Ext.up_argmin k), absIndex (Ext.up_argmax k), absIndex (Ext.up_argmin k)]
  | minmaxindex b p =>
    obtain rfl := o hc
    simp only [Call.run, raiseIn, Bta.one, oneE, twoE, threeE, Un.bind_map, Un.map_bind, Un.map_pure, Un.map_ok, bind_assoc, pure_bind, list1, list2, list3, zero, Ind.minmaxindex, Ind.maxindexAbs, Ind.minindexAbs, Ind.maxindex, Ind.minindex, arg (Ext.up_argmax k), arg (Ext.up_argmin k), absIndex (Ext.up_argmax k), absIndex (Ext.up_argmin k)]
  | avgprice d =>
    cases d with
    | fin d =>
      have hd : d ≠ 0 := fun e => hp (by rw [e])
      obtain rfl := o hc
      simp only [Call.run, raiseIn, Bta.one, oneE, twoE, threeE, Un.bind_map, Un.map_bind, Un.map_pure, Un.map_ok, bind_assoc, pure_bind, list1, list2, list3, zero, Ind.avgprice, add, divS hd, mulS]
      congr 3
      ring
    | _ => exact absurd hc (by simp [levelOut])
  | typprice d =>
    cases d with
    | fin d =>
      have hd : d ≠ 0 := fun e => hp (by rw [e])
      obtain rfl := o hc
      simp only [Call.run, raiseIn, Bta.one, oneE, twoE, threeE, Un.bind_map, Un.map_bind, Un.map_pure, Un.map_ok, bind_assoc, pure_bind, list1, list2, list3, zero, Ind.typprice, add, divS hd, mulS]
      congr 3
      ring
    | _ => exact absurd hc (by simp [levelOut])
  | wclprice w d =>
    cases w with
    | fin w =>
     cases d with
     | fin d =>
      have hd : d ≠ 0 := fun e => hp (by rw [e])
      obtain rfl := o hc
      simp only [Call.run, raiseIn, Bta.one, oneE, twoE, threeE, Un.bind_map, Un.map_bind, Un.map_pure, Un.map_ok, bind_assoc, pure_bind, list1, list2, list3, zero, Ind.wclprice, add, divS hd, mulS]
      congr 3
      ring
     | _ => exact absurd hc (by simp [levelOut])
    | _ => exact absurd hc (by simp [levelOut])
  | medprice d =>
    cases d with
    | fin d =>
      have hd : d ≠ 0 := fun e => hp (by rw [e])
      obtain rfl := o hc
      simp only [Call.run, raiseIn, Bta.one, oneE, twoE, threeE, Un.bind_map, Un.map_bind, Un.map_pure, Un.map_ok, bind_assoc, pure_bind, list1, list2, list3, zero, Ind.medprice, add, divS hd, mulS]
      congr 3
      ring
    | _ => exact absurd hc (by simp [levelOut])
  | macd mf ma ms pf ps pg =>
    obtain rfl := o hc
    have h1 := keeps _ _ hp.1
    have h2 := keeps _ _ hp.2
    simp only [Call.run, raiseIn, Bta.one, oneE, twoE, threeE, Un.bind_map, Un.map_bind, Un.map_pure, Un.map_ok, bind_assoc, pure_bind, list1, list2, list3, zero, Ind.macd, h1 k, h2 k, sub']
  | apo ma pf ps =>
    obtain rfl := o hc
    have h1 := keeps _ _ hp.1
    have h2 := keeps _ _ hp.2
    simp only [Call.run, raiseIn, Bta.one, oneE, twoE, threeE, Un.bind_map, Un.map_bind, Un.map_pure, Un.map_ok, bind_assoc, pure_bind, list1, list2, list3, zero, Ind.apo, Ind.posc, h1 k, h2 k, sub', Bool.false_eq_true, if_false]
  | ppo f ma ms pf ps pg => exact absurd hc (by simp [levelOut])
  | mom p =>
    obtain rfl := o hc
    simp only [Call.run, raiseIn, Bta.one, oneE, twoE, threeE, Un.bind_map, Un.map_bind, Un.map_pure, Un.map_ok, bind_assoc, pure_bind, list1, list2, list3, zero, Ind.mom, diff]
  | roc p => exact absurd hc (by simp [levelOut])
  | rocp p => exact absurd hc (by simp [levelOut])
  | rocr p => exact absurd hc (by simp [levelOut])
  | rocr100 p => exact absurd hc (by simp [levelOut])
  | rsi ma lb p =>
    obtain rfl := o hc
    simp only [Call.run, raiseIn, Bta.one, oneE, twoE, threeE, Un.bind_map, Un.map_bind, Un.map_pure, Un.map_ok, bind_assoc, pure_bind, list1, list2, list3, zero, Ind.rsi, diff]
  | cmo s p =>
    obtain rfl := o hc
    simp only [Call.run, raiseIn, Bta.one, oneE, twoE, threeE, Un.bind_map, Un.map_bind, Un.map_pure, Un.map_ok, bind_assoc, pure_bind, list1, list2, list3, zero, Ind.cmo, diff]
  | mad p =>
    obtain rfl := o hc
    simp only [Call.run, raiseIn, Bta.one, oneE, twoE, threeE, Un.bind_map, Un.map_bind, Un.map_pure, Un.map_ok, bind_assoc, pure_bind, list1, list2, list3, zero, mad]
  | cci ma f p =>
    obtain rfl := o hc
    have h := fun j => keeps _ _ hp j
    simp only [Call.run, raiseIn, Bta.one, oneE, twoE, threeE, Un.bind_map, Un.map_bind, Un.map_pure, Un.map_ok, bind_assoc, pure_bind, list1, list2, list3, zero, Ind.cci, add, divSl (show (3 : ℚ) ≠ 0 by norm_num), h, sub', mad]
  | var d p =>
    obtain rfl := o hc
    simp only [Call.run, raiseIn, Bta.one, oneE, twoE, threeE, Un.bind_map, Un.map_bind, Un.map_pure, Un.map_ok, bind_assoc, pure_bind, list1, list2, list3, zero, var]
  | stddev sq d p =>
    obtain rfl := o hc
    simp only [Call.run, raiseIn, Bta.one, oneE, twoE, threeE, Un.bind_map, Un.map_bind, Un.map_pure, Un.map_ok, bind_assoc, pure_bind, list1, list2, list3, zero, stddev]
  | bbands sq ma d p =>
    obtain rfl := o hc
    have h := keeps _ _ hp
    simp only [Call.run, raiseIn, Bta.one, oneE, twoE, threeE, Un.bind_map, Un.map_bind, Un.map_pure, Un.map_ok, bind_assoc, pure_bind, list1, list2, list3, zero, Ind.bbands, h k, stddev, addR, subR]
  | stochf ma p pf =>
    obtain rfl := o hc
    simp only [Call.run, raiseIn, Bta.one, oneE, twoE, threeE, Un.bind_map, Un.map_bind, Un.map_pure, Un.map_ok, bind_assoc, pure_bind, list1, list2, list3, zero, Ind.stochf, highest, lowest, sub']
  | stochastic ma ms p pf ps =>
    obtain rfl := o hc
    simp only [Call.run, raiseIn, Bta.one, oneE, twoE, threeE, Un.bind_map, Un.map_bind, Un.map_pure, Un.map_ok, bind_assoc, pure_bind, list1, list2, list3, zero, Ind.stochastic, Ind.stochf, highest, lowest, sub']
  | williamsr p =>
    obtain rfl := o hc
    simp only [Call.run, raiseIn, Bta.one, oneE, twoE, threeE, Un.bind_map, Un.map_bind, Un.map_pure, Un.map_ok, bind_assoc, pure_bind, list1, list2, list3, zero, Ind.williamsr, highest, lowest, sub']
  | stochrsi p ph s =>
    obtain rfl := o hc
    simp only [Call.run, raiseIn, Bta.one, oneE, twoE, threeE, Un.bind_map, Un.map_bind, Un.map_pure, Un.map_ok, bind_assoc, pure_bind, list1, list2, list3, zero, Ind.stochrsi, Ind.rsi, diff]
  | stochrsiD ma p ph pf s =>
    obtain rfl := o hc
    simp only [Call.run, raiseIn, Bta.one, oneE, twoE, threeE, Un.bind_map, Un.map_bind, Un.map_pure, Un.map_ok, bind_assoc, pure_bind, list1, list2, list3, zero, Ind.stochrsiD, Ind.stochrsi, Ind.rsi, diff]
  | midprice p =>
    obtain rfl := o hc
    simp only [Call.run, raiseIn, Bta.one, oneE, twoE, threeE, Un.bind_map, Un.map_bind, Un.map_pure, Un.map_ok, bind_assoc, pure_bind, list1, list2, list3, zero, Ind.midprice, highest, lowest, add, divSl (show (2 : ℚ) ≠ 0 by norm_num), half]
  | midpoint p =>
    obtain rfl := o hc
    simp only [Call.run, raiseIn, Bta.one, oneE, twoE, threeE, Un.bind_map, Un.map_bind, Un.map_pure, Un.map_ok, bind_assoc, pure_bind, list1, list2, list3, zero, Ind.midpoint, Ind.midprice, highest, lowest, add, divSl (show (2 : ℚ) ≠ 0 by norm_num), half]
  | bop =>
    obtain rfl := o hc
    simp only [Call.run, raiseIn, Bta.one, oneE, twoE, threeE, Un.bind_map, Un.map_bind, Un.map_pure, Un.map_ok, bind_assoc, pure_bind, list1, list2, list3, zero, Ind.bop, sub']
  | truelow q =>
    obtain rfl := o hc
    simp only [Call.run, raiseIn, Bta.one, oneE, twoE, threeE, Un.bind_map, Un.map_bind, Un.map_pure, Un.map_ok, bind_assoc, pure_bind, list1, list2, list3, zero, Ind.truelow, ago, clipHiL]
  | truerange q =>
    obtain rfl := o hc
    simp only [Call.run, raiseIn, Bta.one, oneE, twoE, threeE, Un.bind_map, Un.map_bind, Un.map_pure, Un.map_ok, bind_assoc, pure_bind, list1, list2, list3, zero, truerange]
  | atr ma q p =>
    obtain rfl := o hc
    simp only [Call.run, raiseIn, Bta.one, oneE, twoE, threeE, Un.bind_map, Un.map_bind, Un.map_pure, Un.map_ok, bind_assoc, pure_bind, list1, list2, list3, zero, Ind.atr, truerange]
  | natr ma q p => exact absurd hc (by simp [levelOut])
  | ultosc p1 p2 p3 f1 f2 f3 =>
    obtain rfl := o hc
    simp only [Call.run, raiseIn, Bta.one, oneE, twoE, threeE, Un.bind_map, Un.map_bind, Un.map_pure, Un.map_ok, bind_assoc, pure_bind, list1, list2, list3, zero, Ind.ultosc, Ind.truelow, ago, clipHiL, sub', truerange]
  | mfi p => exact absurd hc (by simp [levelOut])
  | obv t q =>
    obtain rfl := o hc
    simp only [Call.run, raiseIn, Bta.one, oneE, twoE, threeE, Un.bind_map, Un.map_bind, Un.map_pure, Un.map_ok, bind_assoc, pure_bind, list1, list2, list3, zero, Ind.obv, i0, i1, diff, if_true]
  | ad =>
    obtain rfl := o hc
    simp only [Call.run, raiseIn, Bta.one, oneE, twoE, threeE, Un.bind_map, Un.map_bind, Un.map_pure, Un.map_ok, bind_assoc, pure_bind, list1, list2, list3, zero, Ind.ad, j0, j1, j2, j3, rmulSl, sub, sub_self, adv]
  | adosc ma pf ps =>
    obtain rfl := o hc
    simp only [Call.run, raiseIn, Bta.one, oneE, twoE, threeE, Un.bind_map, Un.map_bind, Un.map_pure, Un.map_ok, bind_assoc, pure_bind, list1, list2, list3, zero, Ind.adosc, Ind.ad, j0, j1, j2, j3, rmulSl, sub, sub_self, adv]
  | aroon p =>
    obtain rfl := o hc
    simp only [Call.run, raiseIn, Bta.one, oneE, twoE, threeE, Un.bind_map, Un.map_bind, Un.map_pure, Un.map_ok, bind_assoc, pure_bind, list1, list2, list3, zero, Ind.aroon, Ind.aroonUp, Ind.aroonDn, aroonComp (Ext.up_argmax k), aroonComp (Ext.up_argmin k)]
  | aroonosc p =>
    obtain rfl := o hc
    simp only [Call.run, raiseIn, Bta.one, oneE, twoE, threeE, Un.bind_map, Un.map_bind, Un.map_pure, Un.map_ok, bind_assoc, pure_bind, list1, list2, list3, zero, Ind.aroonosc, Ind.aroonUp, Ind.aroonDn, aroonComp (Ext.up_argmax k), aroonComp (Ext.up_argmin k)]
  | linregSlope p =>
    obtain rfl := o hc
    simp only [Call.run, raiseIn, Bta.one, oneE, twoE, threeE, Un.bind_map, Un.map_bind, Un.map_pure, Un.map_ok, bind_assoc, pure_bind, list1, list2, list3, zero, Ind.linregSlope, linregSlope]
  | linregAngle at' d p =>
    obtain rfl := o hc
    simp only [Call.run, raiseIn, Bta.one, oneE, twoE, threeE, Un.bind_map, Un.map_bind, Un.map_pure, Un.map_ok, bind_assoc, pure_bind, list1, list2, list3, zero, Ind.linregAngle, linregSlope]
  | linregIntercept t p =>
    obtain rfl := o hc
    simp only [Call.run, raiseIn, Bta.one, oneE, twoE, threeE, Un.bind_map, Un.map_bind, Un.map_pure, Un.map_ok, bind_assoc, pure_bind, list1, list2, list3, zero, Ind.linregIntercept, linregIcpt t hp]
  | linreg p =>
    obtain rfl := o hc
    simp only [Call.run, raiseIn, Bta.one, oneE, twoE, threeE, Un.bind_map, Un.map_bind, Un.map_pure, Un.map_ok, bind_assoc, pure_bind, list1, list2, list3, zero, Ind.linreg, linregIcpt true hp, linregSlope, addR]
  | tsf p =>
    obtain rfl := o hc
    simp only [Call.run, raiseIn, Bta.one, oneE, twoE, threeE, Un.bind_map, Un.map_bind, Un.map_pure, Un.map_ok, bind_assoc, pure_bind, list1, list2, list3, zero, Ind.tsf, linregIcpt true hp, linregSlope, addR]
  | beta r pr p => exact absurd hc (by simp [levelOut])
  | correl sq p =>
    obtain rfl := o hc
    simp only [Call.run, raiseIn, Bta.one, oneE, twoE, threeE, Un.bind_map, Un.map_bind, Un.map_pure, Un.map_ok, bind_assoc, pure_bind, list1, list2, list3, zero, corr]
  | crossup s =>
    obtain rfl := o hc
    simp only [Call.run, raiseIn, Bta.one, oneE, twoE, threeE, Un.bind_map, Un.map_bind, Un.map_pure, Un.map_ok, bind_assoc, pure_bind, list1, list2, list3, zero, Ind.crossup, Ind.cup, Ind.crossDiff, sub', gtL]
  | crossdown s =>
    obtain rfl := o hc
    simp only [Call.run, raiseIn, Bta.one, oneE, twoE, threeE, Un.bind_map, Un.map_bind, Un.map_pure, Un.map_ok, bind_assoc, pure_bind, list1, list2, list3, zero, Ind.crossdown, Ind.cdown, Ind.crossDiff, sub', ltL]
  | crossover s =>
    obtain rfl := o hc
    rfl
  | plusDm s ps q =>
    obtain rfl := o hc
    simp only [Call.run, raiseIn, Bta.one, oneE, twoE, threeE, Un.bind_map, Un.map_bind, Un.map_pure, Un.map_ok, bind_assoc, pure_bind, list1, list2, list3, zero, plusDm]
  | minusDm s ps q =>
    obtain rfl := o hc
    simp only [Call.run, raiseIn, Bta.one, oneE, twoE, threeE, Un.bind_map, Un.map_bind, Un.map_pure, Un.map_ok, bind_assoc, pure_bind, list1, list2, list3, zero, minusDm]
  | dm s ps q =>
    obtain rfl := o hc
    simp only [Call.run, raiseIn, Bta.one, oneE, twoE, threeE, Un.bind_map, Un.map_bind, Un.map_pure, Un.map_ok, bind_assoc, pure_bind, list1, list2, list3, zero, Ind.dm, plusDm, minusDm]
  | plusDi s ps q t =>
    obtain rfl := o hc
    simp only [Call.run, raiseIn, Bta.one, oneE, twoE, threeE, Un.bind_map, Un.map_bind, Un.map_pure, Un.map_ok, bind_assoc, pure_bind, list1, list2, list3, zero, plusDi]
  | minusDi s ps q t =>
    obtain rfl := o hc
    simp only [Call.run, raiseIn, Bta.one, oneE, twoE, threeE, Un.bind_map, Un.map_bind, Un.map_pure, Un.map_ok, bind_assoc, pure_bind, list1, list2, list3, zero, minusDi]
  | di s ps q t =>
    obtain rfl := o hc
    simp only [Call.run, raiseIn, Bta.one, oneE, twoE, threeE, Un.bind_map, Un.map_bind, Un.map_pure, Un.map_ok, bind_assoc, pure_bind, list1, list2, list3, zero, Ind.di, plusDi, minusDi]
  | dx s ps q t =>
    obtain rfl := o hc
    simp only [Call.run, raiseIn, Bta.one, oneE, twoE, threeE, Un.bind_map, Un.map_bind, Un.map_pure, Un.map_ok, bind_assoc, pure_bind, list1, list2, list3, zero, dx]
  | adx s m ps q t p =>
    obtain rfl := o hc
    simp only [Call.run, raiseIn, Bta.one, oneE, twoE, threeE, Un.bind_map, Un.map_bind, Un.map_pure, Un.map_ok, bind_assoc, pure_bind, list1, list2, list3, zero, adx]
  | adxr s m ps q t p pr =>
    obtain rfl := o hc
    simp only [Call.run, raiseIn, Bta.one, oneE, twoE, threeE, Un.bind_map, Un.map_bind, Un.map_pure, Un.map_ok, bind_assoc, pure_bind, list1, list2, list3, zero, adxr]
  | sar af am =>
    obtain rfl := o hc
    simp only [Call.run, raiseIn, Bta.one, oneE, twoE, threeE, Un.bind_map, Un.map_bind, Un.map_pure, Un.map_ok, bind_assoc, pure_bind, list1, list2, list3, zero, Ind.sar, applySar (sarize af am)]
  | sarext P => exact absurd hc (by simp [levelOut])
  | htDcperiod F => exact absurd hc (by simp [levelOut])
  | htPhasor F => exact absurd hc (by simp [levelOut])
  | htDcphase F => exact absurd hc (by simp [levelOut])
  | htSine F => exact absurd hc (by simp [levelOut])
  | htTrendline F => exact absurd hc (by simp [levelOut])
  | htTrendmode F => exact absurd hc (by simp [levelOut])
  | mama F at' f s => exact absurd hc (by simp [levelOut])
  | mathFn f => exact absurd hc (by simp [levelOut])

end Lv
end Bta
