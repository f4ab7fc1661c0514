import Verif.Lemmas.Mirror3
import Verif.Props.Catalog

/-!
# All calls on charts turned upside down
-/

set_option linter.unusedSectionVars false
set_option linter.unusedVariables false
set_option linter.unusedSimpArgs false

namespace Bta
open Line
open _root_.Spec (neg mirrorIn mirrorOut mirrorCall mirrorParams)

variable {V : Type} [PyFloat V] [SignSym V]

namespace Mi

theorem map_id {α : Type} (x : Except Err α) : x.map (fun r => r) = x := by cases x <;> rfl

/-- the result of a calculation on lines of `n` bars has `n` bars -/
theorem bOf {n : ℕ} {x : Except Err (Line V)} (hx : RE (barsRel V n).rv x x) {r : Line V} (h : x = .ok r) : B n r := by
  obtain ⟨r', e, hr⟩ := hx r h
  rw [h] at e
  injection e with e
  subst e
  exact hr

theorem bind_ok {α β : Type} {x : Except Err α} {f : α → Except Err β} {r : β} (h : (x >>= f) = .ok r) :
    ∃ a, x = .ok a ∧ f a = .ok r := by
  cases x with
  | error e => cases h
  | ok a => exact ⟨a, rfl, h⟩

section
variable {n : ℕ} {h l c a : Line V}

theorem ad (ho : SumOrder V) (hh : B n h) (hl : B n l) (hc : B n c) (v : Line V) : Ind.ad (neg l) (neg h) (neg c) v = neg (Ind.ad h l c v) := by
  have b : B n (Line.rmulS (lit 2) c) := LRel.rmulS (R := barsRel V n) hc
  simp only [Ind.ad, sub, rmulS, subSwap hl hh, subRight ho b hl hh, divL, mulL, cumsum]

theorem cmo {m : MA V} {p : ℕ} (ha : B n a) (hm : ∀ b, B n b → RE (barsRel V n).rv (m p b) (m p b)) {r : Line V}
    (hr : Ind.cmo m p a = .ok r) : Ind.cmo m p (neg a) = .ok (neg r) := by
  have bd : B n (Line.diff 1 a) := (barsRel V n).diff ha
  obtain ⟨u, hu, hr⟩ := bind_ok hr
  obtain ⟨d, hd, hr⟩ := bind_ok hr
  injection hr with hr
  subst hr
  have bu := bOf (hm _ (LRel.clipLoS (R := barsRel V n) bd)) hu
  have bd' := bOf (hm _ (LRel.abs (R := barsRel V n) (LRel.clipHiS bd))) hd
  unfold Ind.cmo
  simp only [diff, clipLo' bd, absClip' bd, hu, hd]
  show Except.ok _ = Except.ok _
  rw [← subSwap bu bd', addComm bd' bu, rmulS, divL]

variable {s : Line V → Except Err (Line V)} {q : ℕ}

theorem dm (hh : B n h) (hl : B n l) (hq : 1 ≤ q) {r : Line V × Line V} (hr : Ind.dm s q h l = .ok r) :
    Ind.dm s q (neg l) (neg h) = .ok (r.2, r.1) := by
  obtain ⟨u, hu, hr⟩ := bind_ok hr
  obtain ⟨d, hd, hr⟩ := bind_ok hr
  injection hr with hr
  subst hr
  unfold Ind.dm
  rw [plusDm s hh hl hq, minusDm s hh hl hq, hu, hd]
  rfl

theorem di (hh : B n h) (hl : B n l) (hc : B n c) (hq : 1 ≤ q) {t : Bool} {r : Line V × Line V}
    (hr : Ind.di s q t h l c = .ok r) : Ind.di s q t (neg l) (neg h) (neg c) = .ok (r.2, r.1) := by
  obtain ⟨u, hu, hr⟩ := bind_ok hr
  obtain ⟨d, hd, hr⟩ := bind_ok hr
  injection hr with hr
  subst hr
  unfold Ind.di
  rw [plusDi s hh hl hc hq, minusDi s hh hl hc hq, hu, hd]
  rfl

theorem dx (hh : B n h) (hl : B n l) (hc : B n c) (hq : 1 ≤ q) (hs : (barsRel V n).Sm s) {t : Bool} {r : Line V}
    (hr : Ind.dx s q t h l c = .ok r) : Ind.dx s q t (neg l) (neg h) (neg c) = .ok r := by
  obtain ⟨u, hu, hr⟩ := bind_ok hr
  obtain ⟨d, hd, hr⟩ := bind_ok hr
  injection hr with hr
  subst hr
  have bu := bOf (LRel.plusDi hs hq hh hl hc) hu
  have bd := bOf (LRel.minusDi hs hq hh hl hc) hd
  unfold Ind.dx
  rw [plusDi s hh hl hc hq, minusDi s hh hl hc hq, hu, hd]
  show Except.ok _ = Except.ok _
  rw [← subSwap bu bd, addComm bd bu, abs]

theorem crossDiff (st : Bool) (a b : Line V) : Ind.crossDiff st (neg a) (neg b) = neg (Ind.crossDiff st a b) := by
  simp only [Ind.crossDiff, sub, shift]
  split
  · rfl
  · exact lmap_stdop (σ := fun x : V => -x) (ρ := fun x : V => -x) (fill := PyFloat.nan) (fill' := PyFloat.nan) nanrfl Sg.ng_replaceZero _

theorem oneB (y : Bool) : (lit (-1) : V) * ofBool y = -((lit 1 : V) * ofBool y) := by rw [SignSym.lit_neg, Sg.ng_mulc]
theorem oneB' (y : Bool) : (lit 1 : V) * ofBool y = -((lit (-1) : V) * ofBool y) := by rw [SignSym.lit_neg, Sg.ng_mulc, Sg.neg_neg]

theorem signB (x : Line Bool) : Line.rmulSB (lit (-1) : V) x = neg (Line.rmulSB (lit 1) x) := by
  have := lmap_binopS (σ := fun x : Bool => x) (ρ := fun x : V => -x) (c := (lit 1 : V)) (c' := (lit (-1) : V))
    (f := fun x c => c * ofBool x) (f' := fun x c => c * ofBool x) (fill := PyFloat.nan) (fill' := PyFloat.nan) nanrfl oneB x
  rw [lmap_id] at this; exact this

theorem crossdown (st : Bool) (a b : Line V) : Ind.crossdown st (neg a) (neg b) = neg (Ind.crossup st a b) := by
  simp only [Ind.crossup, Ind.crossdown, Ind.cup, Ind.cdown, crossDiff, gtS0, ltL, signB]

theorem crossup (st : Bool) (a b : Line V) : Ind.crossup st (neg a) (neg b) = neg (Ind.crossdown st a b) := by
  simp only [Ind.crossup, Ind.crossdown, Ind.cup, Ind.cdown, crossDiff, ltS0, gtL, signB, neg_neg]

end

theorem smB {n : ℕ} {m : Avg V} {p : ℕ} (h : m.Periods 2 p) : (barsRel V n).Sm (m.run p) := fun a a' h2 h2' ha =>
  Avg.rel (R := barsRel V n) m 2 p a a' (m.okAll trivial h) h2 h2' ha

theorem maB {n : ℕ} {m : Avg V} {p : ℕ} (h : m.Periods 1 p) (a : Line V) (ha : B n a) :
    RE (barsRel V n).rv (m.run p a) (m.run p a) :=
  Avg.rel (R := barsRel V n) m 1 p a a (m.okAll trivial h) ((barsRel V n).pos ha)
    ((barsRel V n).pos' ha) ha

set_option maxHeartbeats 2000000 in
theorem call {n : ℕ} (x : ℕ → Line V) (hx : Spec.Data n x) (c : Call V) (hk : c.Periods)
    (f : List (Line V) → List (Line V)) (hc : mirrorOut c = some f) (hp : mirrorParams c)
    (ho : Spec.orderFree c ∨ SumOrder V) (r : List (Line V)) (hr : c.run x = .ok r) : (mirrorCall c).run (mirrorIn c x) = .ok (f r) := by
  have hB : ∀ k, B n (x k) := fun k => B.of (hx.len k) (hx.pos k)
  have o : ∀ {l m : List (Line V) → List (Line V)}, some l = some m → l = m := fun h => Option.some.inj h
  have i10 : ∀ (y z : Line V), (if (1 : ℕ) = 0 then y else z) = z := fun _ _ => rfl
  have i20 : ∀ (y z : Line V), (if (2 : ℕ) = 0 then y else z) = z := fun _ _ => rfl
  have i21 : ∀ (y z : Line V), (if (2 : ℕ) = 1 then y else z) = z := fun _ _ => rfl
  have i30 : ∀ (y z : Line V), (if (3 : ℕ) = 0 then y else z) = z := fun _ _ => rfl
  have i31 : ∀ (y z : Line V), (if (3 : ℕ) = 1 then y else z) = z := fun _ _ => rfl
  have i32 : ∀ (y z : Line V), (if (3 : ℕ) = 2 then y else z) = z := fun _ _ => rfl
  have i01 : ∀ (y z : Line V), (if (0 : ℕ) = 1 then y else z) = z := fun _ _ => rfl
  have i02 : ∀ (y z : Line V), (if (0 : ℕ) = 2 then y else z) = z := fun _ _ => rfl
  have l1 : ∀ y : Line V, List.map neg [y] = [neg y] := fun _ => rfl
  have l2 : ∀ y z : Line V, List.map neg [y, z] = [neg y, neg z] := fun _ _ => rfl
  have l3 : ∀ y z w : Line V, List.map neg [y, z, w] = [neg y, neg z, neg w] := fun _ _ _ => rfl
  have r2 : ∀ y z : Line V, List.reverse [y, z] = [z, y] := fun _ _ => rfl
  have fin : (mirrorCall c).run (mirrorIn c x) = (c.run x).map f → (mirrorCall c).run (mirrorIn c x) = .ok (f r) := fun h => by
    rw [h, hr]; rfl
  cases c with
  | avg m p =>
    cases m with
    | trix m => cases hc
    | _ =>
      obtain rfl := o hc
      have h := odd _ hp
      apply fin
      simp only [Call.run, mirrorIn, mirrorCall, oneE, h _ (_ : Line V), Un.bind_map, Un.map_bind, Un.map_pure, l1]
  | add =>
    obtain rfl := o hc
    apply fin
    simp only [Call.run, mirrorIn, mirrorCall, Bta.one, oneE, twoE, threeE, Un.bind_map, Un.map_bind, Un.map_pure, Un.map_ok,
      bind_assoc, pure_bind, l1, l2, l3, r2, id, if_true, i10, i20, i21, i30, i31, i32, i01, i02, Ind.add, add, map_id]
  | sub =>
    obtain rfl := o hc
    apply fin
    simp only [Call.run, mirrorIn, mirrorCall, Bta.one, oneE, twoE, threeE, Un.bind_map, Un.map_bind, Un.map_pure, Un.map_ok,
      bind_assoc, pure_bind, l1, l2, l3, r2, id, if_true, i10, i20, i21, i30, i31, i32, i01, i02, Ind.sub, sub, map_id]
  | mult =>
    obtain rfl := o hc
    apply fin
    simp only [Call.run, mirrorIn, mirrorCall, Bta.one, oneE, twoE, threeE, Un.bind_map, Un.map_bind, Un.map_pure, Un.map_ok,
      bind_assoc, pure_bind, l1, l2, l3, r2, id, if_true, i10, i20, i21, i30, i31, i32, i01, i02, Ind.mult, mul, map_id]
  | max p =>
    obtain rfl := o hc
    apply fin
    simp only [Call.run, mirrorIn, mirrorCall, Bta.one, oneE, twoE, threeE, Un.bind_map, Un.map_bind, Un.map_pure, Un.map_ok,
      bind_assoc, pure_bind, l1, l2, l3, r2, id, if_true, i10, i20, i21, i30, i31, i32, i01, i02, lowest, map_id]
  | min p =>
    obtain rfl := o hc
    apply fin
    simp only [Call.run, mirrorIn, mirrorCall, Bta.one, oneE, twoE, threeE, Un.bind_map, Un.map_bind, Un.map_pure, Un.map_ok,
      bind_assoc, pure_bind, l1, l2, l3, r2, id, if_true, i10, i20, i21, i30, i31, i32, i01, i02, highest, map_id]
  | minmax p =>
    obtain rfl := o hc
    apply fin
    simp only [Call.run, mirrorIn, mirrorCall, Bta.one, oneE, twoE, threeE, Un.bind_map, Un.map_bind, Un.map_pure, Un.map_ok,
      bind_assoc, pure_bind, l1, l2, l3, r2, id, if_true, i10, i20, i21, i30, i31, i32, i01, i02, Ind.minmax, lowest, highest, map_id]
  | maxindex p =>
    obtain rfl := o hc
    apply fin
    simp only [Call.run, mirrorIn, mirrorCall, Bta.one, oneE, twoE, threeE, Un.bind_map, Un.map_bind, Un.map_pure, Un.map_ok,
      bind_assoc, pure_bind, l1, l2, l3, r2, id, if_true, i10, i20, i21, i30, i31, i32, i01, i02, Ind.maxindex, Ind.minindex, arg Sg.ng_argmin, map_id]
  | minindex p =>
    obtain rfl := o hc
    apply fin
    simp only [Call.run, mirrorIn, mirrorCall, Bta.one, oneE, twoE, threeE, Un.bind_map, Un.map_bind, Un.map_pure, Un.map_ok,
      bind_assoc, pure_bind, l1, l2, l3, r2, id, if_true, i10, i20, i21, i30, i31, i32, i01, i02, Ind.maxindex, Ind.minindex, arg Sg.ng_argmax, map_id]
  | maxindexAbs p =>
    obtain rfl := o hc
    apply fin
    simp only [Call.run, mirrorIn, mirrorCall, Bta.one, oneE, twoE, threeE, Un.bind_map, Un.map_bind, Un.map_pure, Un.map_ok,
      bind_assoc, pure_bind, l1, l2, l3, r2, id, if_true, i10, i20, i21, i30, i31, i32, i01, i02, Ind.maxindexAbs, Ind.minindexAbs, absIndex Sg.ng_argmin, map_id]
  | minindexAbs p =>
    obtain rfl := o hc
    apply fin
    simp only [Call.run, mirrorIn, mirrorCall, Bta.one, oneE, twoE, threeE, Un.bind_map, Un.map_bind, Un.map_pure, Un.map_ok,
      bind_assoc, pure_bind, l1, l2, l3, r2, id, if_true, i10, i20, i21, i30, i31, i32, i01, i02, Ind.maxindexAbs, Ind.minindexAbs, absIndex Sg.ng_argmax, map_id]
  | minmaxindex b p =>
    obtain rfl := o hc
    apply fin
    cases b <;> simp only [Call.run, mirrorIn, mirrorCall, Un.map_ok, r2, Ind.minmaxindex, Bool.false_eq_true, if_false, if_true, Ind.maxindexAbs, Ind.minindexAbs, Ind.maxindex, Ind.minindex,
      absIndex Sg.ng_argmax, absIndex Sg.ng_argmin, arg Sg.ng_argmax, arg Sg.ng_argmin]
  | avgprice d =>
    obtain rfl := o hc
    apply fin
    simp only [Call.run, mirrorIn, mirrorCall, Bta.one, oneE, twoE, threeE, Un.bind_map, Un.map_bind, Un.map_pure, Un.map_ok,
      bind_assoc, pure_bind, l1, l2, l3, r2, id, if_true, i10, i20, i21, i30, i31, i32, i01, i02, Ind.avgprice, add, divS, addRight (ho.resolve_left (fun h => h)) (hB 0) (hB 2) (hB 1), map_id]
  | typprice d =>
    obtain rfl := o hc
    apply fin
    simp only [Call.run, mirrorIn, mirrorCall, Bta.one, oneE, twoE, threeE, Un.bind_map, Un.map_bind, Un.map_pure, Un.map_ok,
      bind_assoc, pure_bind, l1, l2, l3, r2, id, if_true, i10, i20, i21, i30, i31, i32, i01, i02, Ind.typprice, add, divS, addComm (hB 1) (hB 0), map_id]
  | wclprice w d =>
    obtain rfl := o hc
    apply fin
    simp only [Call.run, mirrorIn, mirrorCall, Bta.one, oneE, twoE, threeE, Un.bind_map, Un.map_bind, Un.map_pure, Un.map_ok,
      bind_assoc, pure_bind, l1, l2, l3, r2, id, if_true, i10, i20, i21, i30, i31, i32, i01, i02, Ind.wclprice, add, divS, mulS, addComm (hB 1) (hB 0), map_id]
  | medprice d =>
    obtain rfl := o hc
    apply fin
    simp only [Call.run, mirrorIn, mirrorCall, Bta.one, oneE, twoE, threeE, Un.bind_map, Un.map_bind, Un.map_pure, Un.map_ok,
      bind_assoc, pure_bind, l1, l2, l3, r2, id, if_true, i10, i20, i21, i30, i31, i32, i01, i02, Ind.medprice, add, divS, addComm (hB 1) (hB 0), map_id]
  | macd mf ma ms pf ps pg =>
    obtain rfl := o hc
    have h1 := odd _ hp.1
    have h2 := odd _ hp.2.1
    have h3 := odd _ hp.2.2
    apply fin
    simp only [Call.run, mirrorIn, mirrorCall, Bta.one, oneE, twoE, threeE, Un.bind_map, Un.map_bind, Un.map_pure, Un.map_ok,
      bind_assoc, pure_bind, l1, l2, l3, r2, id, if_true, i10, i20, i21, i30, i31, i32, i01, i02, h1 _ (_ : Line V), h2 _ (_ : Line V), h3 _ (_ : Line V), Ind.macd, sub, map_id]
  | apo ma pf ps =>
    obtain rfl := o hc
    have h := odd _ hp
    apply fin
    simp only [Call.run, mirrorIn, mirrorCall, Bta.one, oneE, twoE, threeE, Un.bind_map, Un.map_bind, Un.map_pure, Un.map_ok,
      bind_assoc, pure_bind, l1, l2, l3, r2, id, if_true, i10, i20, i21, i30, i31, i32, i01, i02, h _ (_ : Line V), Ind.apo, Ind.posc, sub, Bool.false_eq_true, if_false, map_id]
  | mom p =>
    obtain rfl := o hc
    apply fin
    simp only [Call.run, mirrorIn, mirrorCall, Bta.one, oneE, twoE, threeE, Un.bind_map, Un.map_bind, Un.map_pure, Un.map_ok,
      bind_assoc, pure_bind, l1, l2, l3, r2, id, if_true, i10, i20, i21, i30, i31, i32, i01, i02, Ind.mom, diff, map_id]
  | cmo s p =>
    obtain rfl := o hc
    obtain ⟨y, hy, hr⟩ := bind_ok (show _ >>= _ = Except.ok r from hr)
    injection hr with hr
    subst hr
    show Bta.oneE (Ind.cmo s.run p (neg (x 0))) = _
    rw [cmo (hB 0) (fun b hb => maB hk b hb) hy]; rfl
  | mad p =>
    obtain rfl := o hc
    apply fin
    simp only [Call.run, mirrorIn, mirrorCall, Bta.one, oneE, twoE, threeE, Un.bind_map, Un.map_bind, Un.map_pure, Un.map_ok,
      bind_assoc, pure_bind, l1, l2, l3, r2, id, if_true, i10, i20, i21, i30, i31, i32, i01, i02, mad, map_id]
  | cci ma f p =>
    obtain rfl := o hc
    have h := odd _ hp
    apply fin
    simp only [Call.run, mirrorIn, mirrorCall, Bta.one, oneE, twoE, threeE, Un.bind_map, Un.map_bind, Un.map_pure, Un.map_ok,
      bind_assoc, pure_bind, l1, l2, l3, r2, id, if_true, i10, i20, i21, i30, i31, i32, i01, i02, h _ (_ : Line V), Ind.cci, add, divS, mad, sub, divL, addComm (hB 1) (hB 0), map_id]
  | var d p =>
    obtain rfl := o hc
    apply fin
    simp only [Call.run, mirrorIn, mirrorCall, Bta.one, oneE, twoE, threeE, Un.bind_map, Un.map_bind, Un.map_pure, Un.map_ok,
      bind_assoc, pure_bind, l1, l2, l3, r2, id, if_true, i10, i20, i21, i30, i31, i32, i01, i02, var, map_id]
  | stddev sq d p =>
    obtain rfl := o hc
    apply fin
    simp only [Call.run, mirrorIn, mirrorCall, Bta.one, oneE, twoE, threeE, Un.bind_map, Un.map_bind, Un.map_pure, Un.map_ok,
      bind_assoc, pure_bind, l1, l2, l3, r2, id, if_true, i10, i20, i21, i30, i31, i32, i01, i02, stddev, map_id]
  | bbands sq ma d p =>
    obtain rfl := o hc
    have h := odd _ hp
    apply fin
    simp only [Call.run, mirrorIn, mirrorCall, Bta.one, oneE, twoE, threeE, Un.bind_map, Un.map_bind, Un.map_pure, Un.map_ok,
      bind_assoc, pure_bind, l1, l2, l3, r2, id, if_true, i10, i20, i21, i30, i31, i32, i01, i02, h _ (_ : Line V), Ind.bbands, stddev, negAdd, negSub, map_id]
  | midprice p =>
    obtain rfl := o hc
    apply fin
    simp only [Call.run, mirrorIn, mirrorCall, Bta.one, oneE, twoE, threeE, Un.bind_map, Un.map_bind, Un.map_pure, Un.map_ok,
      bind_assoc, pure_bind, l1, l2, l3, r2, id, if_true, i10, i20, i21, i30, i31, i32, i01, i02, Ind.midprice, highest, lowest, add, divS, addComm (LRel.lowest hk (hB 1)) (LRel.highest hk (hB 0)), map_id]
  | midpoint p =>
    obtain rfl := o hc
    apply fin
    simp only [Call.run, mirrorIn, mirrorCall, Bta.one, oneE, twoE, threeE, Un.bind_map, Un.map_bind, Un.map_pure, Un.map_ok,
      bind_assoc, pure_bind, l1, l2, l3, r2, id, if_true, i10, i20, i21, i30, i31, i32, i01, i02, Ind.midpoint, Ind.midprice, highest, lowest, add, divS, addComm (LRel.lowest hk (hB 0)) (LRel.highest hk (hB 0)), map_id]
  | bop =>
    obtain rfl := o hc
    apply fin
    simp only [Call.run, mirrorIn, mirrorCall, Bta.one, oneE, twoE, threeE, Un.bind_map, Un.map_bind, Un.map_pure, Un.map_ok,
      bind_assoc, pure_bind, l1, l2, l3, r2, id, if_true, i10, i20, i21, i30, i31, i32, i01, i02, Ind.bop, sub, subSwap (hB 2) (hB 1), divL, map_id]
  | truerange q =>
    obtain rfl := o hc
    apply fin
    simp only [Call.run, mirrorIn, mirrorCall, Bta.one, oneE, twoE, threeE, Un.bind_map, Un.map_bind, Un.map_pure, Un.map_ok,
      bind_assoc, pure_bind, l1, l2, l3, r2, id, if_true, i10, i20, i21, i30, i31, i32, i01, i02, truerange (hB 0) (hB 1) (hB 2), map_id]
  | atr ma q p =>
    obtain rfl := o hc
    apply fin
    simp only [Call.run, mirrorIn, mirrorCall, Bta.one, oneE, twoE, threeE, Un.bind_map, Un.map_bind, Un.map_pure, Un.map_ok,
      bind_assoc, pure_bind, l1, l2, l3, r2, id, if_true, i10, i20, i21, i30, i31, i32, i01, i02, Ind.atr, truerange (hB 0) (hB 1) (hB 2), map_id]
  | obv t q =>
    cases t with
    | true => cases hc
    | false =>
      obtain rfl := o hc
      apply fin
      simp only [Call.run, mirrorIn, mirrorCall, Bta.one, Un.map_ok, l1, if_true, i10, Ind.obv, Bool.false_eq_true, if_false, diff, signOp, mulR, cumsum]
  | ad =>
    obtain rfl := o hc
    apply fin
    simp only [Call.run, mirrorIn, mirrorCall, Bta.one, oneE, twoE, threeE, Un.bind_map, Un.map_bind, Un.map_pure, Un.map_ok,
      bind_assoc, pure_bind, l1, l2, l3, r2, id, if_true, i10, i20, i21, i30, i31, i32, i01, i02, ad (ho.resolve_left (fun h => h)) (hB 0) (hB 1) (hB 2), map_id]
  | adosc ma pf ps =>
    obtain rfl := o hc
    have h := odd _ hp
    apply fin
    simp only [Call.run, mirrorIn, mirrorCall, Bta.one, oneE, twoE, threeE, Un.bind_map, Un.map_bind, Un.map_pure, Un.map_ok,
      bind_assoc, pure_bind, l1, l2, l3, r2, id, if_true, i10, i20, i21, i30, i31, i32, i01, i02, h _ (_ : Line V), Ind.adosc, ad (ho.resolve_left (fun h => h)) (hB 0) (hB 1) (hB 2), sub, map_id]
  | aroon p =>
    obtain rfl := o hc
    apply fin
    simp only [Call.run, mirrorIn, mirrorCall, Bta.one, oneE, twoE, threeE, Un.bind_map, Un.map_bind, Un.map_pure, Un.map_ok,
      bind_assoc, pure_bind, l1, l2, l3, r2, id, if_true, i10, i20, i21, i30, i31, i32, i01, i02, Ind.aroon, Ind.aroonUp, Ind.aroonDn, aroonComp Sg.ng_argmax, aroonComp Sg.ng_argmin, map_id]
  | aroonosc p =>
    obtain rfl := o hc
    apply fin
    simp only [Call.run, mirrorIn, mirrorCall, Bta.one, oneE, twoE, threeE, Un.bind_map, Un.map_bind, Un.map_pure, Un.map_ok,
      bind_assoc, pure_bind, l1, l2, l3, r2, id, if_true, i10, i20, i21, i30, i31, i32, i01, i02, Ind.aroonosc, Ind.aroonUp, Ind.aroonDn, aroonComp Sg.ng_argmax, aroonComp Sg.ng_argmin, subSwap (LRel.aroonComp (hB 0)) (LRel.aroonComp (hB 1)), map_id]
  | linregSlope p =>
    obtain rfl := o hc
    apply fin
    simp only [Call.run, mirrorIn, mirrorCall, Bta.one, oneE, twoE, threeE, Un.bind_map, Un.map_bind, Un.map_pure, Un.map_ok,
      bind_assoc, pure_bind, l1, l2, l3, r2, id, if_true, i10, i20, i21, i30, i31, i32, i01, i02, Ind.linregSlope, linregBase, map_id]
  | linregIntercept t p =>
    obtain rfl := o hc
    apply fin
    simp only [Call.run, mirrorIn, mirrorCall, Bta.one, oneE, twoE, threeE, Un.bind_map, Un.map_bind, Un.map_pure, Un.map_ok,
      bind_assoc, pure_bind, l1, l2, l3, r2, id, if_true, i10, i20, i21, i30, i31, i32, i01, i02, Ind.linregIntercept, linregBase, map_id]
  | linreg p =>
    obtain rfl := o hc
    apply fin
    simp only [Call.run, mirrorIn, mirrorCall, Bta.one, oneE, twoE, threeE, Un.bind_map, Un.map_bind, Un.map_pure, Un.map_ok,
      bind_assoc, pure_bind, l1, l2, l3, r2, id, if_true, i10, i20, i21, i30, i31, i32, i01, i02, Ind.linreg, linregBase, mulS, add, map_id]
  | tsf p =>
    obtain rfl := o hc
    apply fin
    simp only [Call.run, mirrorIn, mirrorCall, Bta.one, oneE, twoE, threeE, Un.bind_map, Un.map_bind, Un.map_pure, Un.map_ok,
      bind_assoc, pure_bind, l1, l2, l3, r2, id, if_true, i10, i20, i21, i30, i31, i32, i01, i02, Ind.tsf, linregBase, mulS, add, map_id]
  | beta r' pr p =>
    cases r' with
    | true => cases hc
    | false =>
      obtain rfl := o hc
      apply fin
      simp only [Call.run, mirrorIn, mirrorCall, Bta.one, Un.map_ok, id, Ind.beta, Bool.false_eq_true, if_false, sumN, mul, square]
  | correl sq p =>
    obtain rfl := o hc
    apply fin
    simp only [Call.run, mirrorIn, mirrorCall, Bta.one, oneE, twoE, threeE, Un.bind_map, Un.map_bind, Un.map_pure, Un.map_ok,
      bind_assoc, pure_bind, l1, l2, l3, r2, id, if_true, i10, i20, i21, i30, i31, i32, i01, i02, corr, map_id]
  | crossup s =>
    obtain rfl := o hc
    apply fin
    simp only [Call.run, mirrorIn, mirrorCall, Bta.one, Un.map_ok, l1, crossup, crossdown]
  | crossdown s =>
    obtain rfl := o hc
    apply fin
    simp only [Call.run, mirrorIn, mirrorCall, Bta.one, Un.map_ok, l1, crossup, crossdown]
  | plusDm s ps q =>
    obtain rfl := o hc
    apply fin
    simp only [Call.run, mirrorIn, mirrorCall, Bta.one, oneE, twoE, threeE, Un.bind_map, Un.map_bind, Un.map_pure, Un.map_ok,
      bind_assoc, pure_bind, l1, l2, l3, r2, id, if_true, i10, i20, i21, i30, i31, i32, i01, i02, minusDm _ (hB 0) (hB 1) hk.1, map_id]
  | minusDm s ps q =>
    obtain rfl := o hc
    apply fin
    simp only [Call.run, mirrorIn, mirrorCall, Bta.one, oneE, twoE, threeE, Un.bind_map, Un.map_bind, Un.map_pure, Un.map_ok,
      bind_assoc, pure_bind, l1, l2, l3, r2, id, if_true, i10, i20, i21, i30, i31, i32, i01, i02, plusDm _ (hB 0) (hB 1) hk.1, map_id]
  | dm s ps q =>
    obtain rfl := o hc
    obtain ⟨y, hy, hr⟩ := bind_ok (show _ >>= _ = Except.ok r from hr)
    injection hr with hr
    subst hr
    show Bta.twoE (Ind.dm (s.run ps) q (neg (x 1)) (neg (x 0))) = _
    rw [dm (hB 0) (hB 1) hk.1 hy]; rfl
  | plusDi s ps q t =>
    obtain rfl := o hc
    apply fin
    simp only [Call.run, mirrorIn, mirrorCall, Bta.one, oneE, twoE, threeE, Un.bind_map, Un.map_bind, Un.map_pure, Un.map_ok,
      bind_assoc, pure_bind, l1, l2, l3, r2, id, if_true, i10, i20, i21, i30, i31, i32, i01, i02, minusDi _ (hB 0) (hB 1) (hB 2) hk.1, map_id]
  | minusDi s ps q t =>
    obtain rfl := o hc
    apply fin
    simp only [Call.run, mirrorIn, mirrorCall, Bta.one, oneE, twoE, threeE, Un.bind_map, Un.map_bind, Un.map_pure, Un.map_ok,
      bind_assoc, pure_bind, l1, l2, l3, r2, id, if_true, i10, i20, i21, i30, i31, i32, i01, i02, plusDi _ (hB 0) (hB 1) (hB 2) hk.1, map_id]
  | di s ps q t =>
    obtain rfl := o hc
    obtain ⟨y, hy, hr⟩ := bind_ok (show _ >>= _ = Except.ok r from hr)
    injection hr with hr
    subst hr
    show Bta.twoE (Ind.di (s.run ps) q t (neg (x 1)) (neg (x 0)) (neg (x 2))) = _
    rw [di (hB 0) (hB 1) (hB 2) hk.1 hy]; rfl
  | dx s ps q t =>
    obtain rfl := o hc
    obtain ⟨y, hy, hr⟩ := bind_ok (show _ >>= _ = Except.ok r from hr)
    injection hr with hr
    subst hr
    show Bta.oneE (Ind.dx (s.run ps) q t (neg (x 1)) (neg (x 0)) (neg (x 2))) = _
    rw [dx (hB 0) (hB 1) (hB 2) hk.1 (smB hk.2) hy]; rfl
  | adx s m ps q t p =>
    obtain rfl := o hc
    obtain ⟨y, hy, hr⟩ := bind_ok (show _ >>= _ = Except.ok r from hr)
    injection hr with hr
    subst hr
    obtain ⟨z, hz, hy⟩ := bind_ok (show _ >>= _ = Except.ok y from hy)
    show Bta.oneE (Ind.adx (s.run ps) m.run q t p (neg (x 1)) (neg (x 0)) (neg (x 2))) = _
    unfold Ind.adx
    rw [dx (hB 0) (hB 1) (hB 2) hk.1 (smB hk.2.1) hz]
    show Bta.oneE (m.run p z) = _
    rw [hy]; rfl
  | adxr s m ps q t p pr =>
    obtain rfl := o hc
    obtain ⟨y, hy, hr⟩ := bind_ok (show _ >>= _ = Except.ok r from hr)
    injection hr with hr
    subst hr
    obtain ⟨w, hw, hy⟩ := bind_ok (show _ >>= _ = Except.ok y from hy)
    obtain ⟨z, hz, hw⟩ := bind_ok (show _ >>= _ = Except.ok w from hw)
    show Bta.oneE (Ind.adxr (s.run ps) m.run q t p pr (neg (x 1)) (neg (x 0)) (neg (x 2))) = _
    unfold Ind.adxr Ind.adx
    rw [dx (hB 0) (hB 1) (hB 2) hk.1 (smB hk.2.1) hz]
    show Bta.oneE (m.run p z >>= _) = _
    rw [hw]
    exact congrArg Bta.oneE hy
  | htDcperiod F =>
    obtain rfl := o hc
    apply fin
    simp only [Call.run, mirrorIn, mirrorCall, Bta.one, oneE, twoE, threeE, Un.bind_map, Un.map_bind, Un.map_pure, Un.map_ok,
      bind_assoc, pure_bind, l1, l2, l3, r2, id, if_true, i10, i20, i21, i30, i31, i32, i01, i02, htDcperiod, map_id]
  | htTrendline F =>
    obtain rfl := o hc
    apply fin
    simp only [Call.run, mirrorIn, mirrorCall, Bta.one, oneE, twoE, threeE, Un.bind_map, Un.map_bind, Un.map_pure, Un.map_ok,
      bind_assoc, pure_bind, l1, l2, l3, r2, id, if_true, i10, i20, i21, i30, i31, i32, i01, i02, htCheck, htTrendline, map_id]
  | htPhasor F =>
    obtain rfl := o hc
    apply fin
    simp only [Call.run, mirrorIn, mirrorCall, Bta.one, oneE, twoE, threeE, Un.bind_map, Un.map_bind, Un.map_pure, Un.map_ok,
      bind_assoc, pure_bind, l1, l2, l3, r2, id, if_true, i10, i20, i21, i30, i31, i32, i01, i02, htInphase, htQuadrature, map_id]
  | mama F at' f s =>
    obtain rfl := o hc
    apply fin
    simp only [Call.run, mirrorIn, mirrorCall, Bta.one, oneE, twoE, threeE, Un.bind_map, Un.map_bind, Un.map_pure, Un.map_ok,
      bind_assoc, pure_bind, l1, l2, l3, r2, id, if_true, i10, i20, i21, i30, i31, i32, i01, i02, mama (hB 0), map_id]
  | div => cases hc
  | ppo _ _ _ _ _ _ => cases hc
  | roc _ => cases hc
  | rocp _ => cases hc
  | rocr _ => cases hc
  | rocr100 _ => cases hc
  | rsi _ _ _ => cases hc
  | stochf _ _ _ => cases hc
  | stochastic _ _ _ _ _ => cases hc
  | williamsr _ => cases hc
  | stochrsi _ _ _ => cases hc
  | stochrsiD _ _ _ _ _ => cases hc
  | truelow _ => cases hc
  | natr _ _ _ => cases hc
  | ultosc _ _ _ _ _ _ => cases hc
  | mfi _ => cases hc
  | linregAngle _ _ _ => cases hc
  | crossover _ => cases hc
  | sar _ _ => cases hc
  | sarext _ => cases hc
  | htDcphase _ => cases hc
  | htTrendmode _ => cases hc
  | htSine _ => cases hc
  | mathFn _ => cases hc

end Mi
end Bta
