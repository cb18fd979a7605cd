import Verif.Props.NoEmpty
import Verif.Props.Empty
import Verif.Spec.Recheck
/-!
# Two checking policies on the same operands

Every operation on intervals that contain a real number runs the same way under any two checking policies: it delivers the
same bounds, or calls `empty()` under both.
-/

set_option linter.unusedSectionVars false

namespace BI
open Set

section
variable {T : Type} [Num T] [Val T] [NumLaws T] {B : Arith Res T} {C C' : Checking T} {x y : Itv T} {t : T} {a b c d : EReal}

/-- The same outcome, or both ask the policy for an empty interval. -/
def Alike (C C' : Checking T) (q q' : Res (Itv T)) : Prop := q = q' ∨ q = emptyI C ∧ q' = emptyI C'

theorem posInf_eq (h : InfBase T) (sp : ChkSpec) (nd : Bool) : (sp.eval T nd).posInf = .ok Num.infinity := by
  induction sp with
  | base => change (assertRes nd (Num.hasInf T)).bind _ = _; rw [h.1]; rfl
  | noEmpty c ih => exact ih
  | noNan c ih => exact ih
  | catchNan c ih => exact ih

theorem negInf_eq (h : InfBase T) (sp : ChkSpec) (nd : Bool) : (sp.eval T nd).negInf = ofOpt (Num.neg Num.infinity) := by
  induction sp with
  | base => change (assertRes nd (Num.hasInf T)).bind _ = _; rw [h.1]; rfl
  | noEmpty c ih => exact ih
  | noNan c ih => exact ih
  | catchNan c ih => exact ih

/-- The two policies deliver the same infinities. -/
structure SameInf (C C' : Checking T) : Prop where
  pos : C.posInf = C'.posInf
  neg : C.negInf = C'.negInf

theorem sameInf (h : InfBase T) (sp sp' : ChkSpec) (nd nd' : Bool) : SameInf (sp.eval T nd) (sp'.eval T nd') :=
  ⟨by rw [posInf_eq h, posInf_eq h], by rw [negInf_eq h, negInf_eq h]⟩

theorem SameInf.whole (h : SameInf C C') : wholeI C = wholeI C' := by unfold wholeI; rw [h.neg, h.pos]

variable (hC : ChkLaws C) (hC' : ChkLaws C')
include hC hC'

theorem addII_alike (hx : Has x a b) (hy : Has y c d) :
    addII (purePolicies B C) x y = addII (purePolicies B C') x y := by
  unfold addII
  rw [pure_chk, pure_chk, res_if_false (hx.test2 hC hy), res_if_false (hx.test2 hC' hy)]; rfl

theorem subII_alike (hx : Has x a b) (hy : Has y c d) :
    subII (purePolicies B C) x y = subII (purePolicies B C') x y := by
  unfold subII
  rw [pure_chk, pure_chk, res_if_false (hx.test2 hC hy), res_if_false (hx.test2 hC' hy)]; rfl

theorem mulII_alike (hx : Has x a b) (hy : Has y c d) :
    mulII (purePolicies B C) x y = mulII (purePolicies B C') x y := by
  unfold mulII
  rw [pure_chk, pure_chk, res_if_false (hx.test2 hC hy), res_if_false (hx.test2 hC' hy)]; rfl

theorem divII_alike (hI : SameInf C C') (hx : Has x a b) (hy : Has y c d) :
    Alike C C' (divII (purePolicies B C) x y) (divII (purePolicies B C') x y) := by
  unfold divII divZeroI divNegativeI divPositiveI mkNegInf mkPosInf
  rw [pure_chk, pure_chk, res_if_false (hx.test2 hC hy), res_if_false (hx.test2 hC' hy), zeroIn_eq hC hy, zeroIn_eq hC' hy,
    hI.pos, hI.neg, hI.whole]
  by_cases h0 : c ≤ 0 ∧ 0 ≤ d
  · simp only [h0]
    cases h1 : isZero y.lower <;> cases h2 : isZero y.upper
    · exact .inl rfl
    · exact .inl rfl
    · exact .inl rfl
    · exact .inr ⟨rfl, rfl⟩
  · simp only [h0]; exact .inl rfl

theorem BinOp.II_alike (o : BinOp) (hI : o = .div → SameInf C C') (hx : Has x a b) (hy : Has y c d) :
    Alike C C' (o.II (purePolicies B C) x y) (o.II (purePolicies B C') x y) := by
  cases o with
  | add => exact .inl (addII_alike hC hC' hx hy)
  | sub => exact .inl (subII_alike hC hC' hx hy)
  | mul => exact .inl (mulII_alike hC hC' hx hy)
  | div => exact divII_alike hC hC' (hI rfl) hx hy
  | min =>
    refine .inl ?_
    change minII C x y = minII C' x y
    unfold minII
    rw [res_if_false' (hx.test2 hC hy), res_if_false' (hx.test2 hC' hy)]
  | max =>
    refine .inl ?_
    change maxII C x y = maxII C' x y
    unfold maxII
    rw [res_if_false' (hx.test2 hC hy), res_if_false' (hx.test2 hC' hy)]
  | hull =>
    refine .inl ?_
    change hullII C x y = hullII C' x y
    unfold hullII
    rw [hx.test hC, hy.test hC, hx.test hC', hy.test hC']; rfl

theorem BinOp.TI_alike (o : BinOp) (hI : o = .div → SameInf C C') (ht : val t = some a) (hy : Has y c d) :
    Alike C C' (o.TI (purePolicies B C) t y) (o.TI (purePolicies B C') t y) := by
  have h1 := testTI_ok hC ht hy
  have h2 := testTI_ok hC' ht hy
  cases o with
  | add => refine .inl ?_; change addTI _ t y = addTI _ t y; unfold addTI; rw [pure_chk, pure_chk, res_if_false h1, res_if_false h2]; rfl
  | sub => refine .inl ?_; change subTI _ t y = subTI _ t y; unfold subTI; rw [pure_chk, pure_chk, res_if_false h1, res_if_false h2]; rfl
  | mul => refine .inl ?_; change mulTI _ t y = mulTI _ t y; unfold mulTI; rw [pure_chk, pure_chk, res_if_false h1, res_if_false h2]; rfl
  | div =>
    change Alike C C' (divTI _ t y) (divTI _ t y)
    unfold divTI divZeroT divNegativeT divPositiveT mkNegInf mkPosInf
    rw [pure_chk, pure_chk, res_if_false h1, res_if_false h2, zeroIn_eq hC hy, zeroIn_eq hC' hy, (hI rfl).pos, (hI rfl).neg, (hI rfl).whole]
    by_cases h0 : c ≤ 0 ∧ 0 ≤ d
    · simp only [h0]
      cases h1 : isZero y.lower <;> cases h2 : isZero y.upper
      · exact .inl rfl
      · exact .inl rfl
      · exact .inl rfl
      · exact .inr ⟨rfl, rfl⟩
    · simp only [h0]; exact .inl rfl
  | min =>
    refine .inl ?_
    change minTI C t y = minTI C' t y
    unfold minTI; rw [res_if_false' h1, res_if_false' h2]
  | max =>
    refine .inl ?_
    change maxTI C t y = maxTI C' t y
    unfold maxTI; rw [res_if_false' h1, res_if_false' h2]
  | hull =>
    refine .inl ?_
    change hullTI C t y = hullTI C' t y
    unfold hullTI testT
    rw [hC.isNan _ _ ht, hC'.isNan _ _ ht, hy.test hC, hy.test hC']; rfl

theorem BinOp.IT_alike (o : BinOp) (hx : Has x a b) (ht : val t = some c) :
    Alike C C' (o.IT (purePolicies B C) x t) (o.IT (purePolicies B C') x t) := by
  have h1 : testIT C x t = .ok false := by
    have h1 := hC.isNan _ _ ht; have h2 := hx.test hC
    unfold testI at h2; unfold testIT; rw [h2, h1]; rfl
  have h2 : testIT C' x t = .ok false := by
    have h1 := hC'.isNan _ _ ht; have h2 := hx.test hC'
    unfold testI at h2; unfold testIT; rw [h2, h1]; rfl
  cases o with
  | add => exact BinOp.TI_alike hC hC' .add (by simp) ht hx
  | mul => exact BinOp.TI_alike hC hC' .mul (by simp) ht hx
  | sub => refine .inl ?_; change subIT _ x t = subIT _ x t; unfold subIT; rw [pure_chk, pure_chk, res_if_false h1, res_if_false h2]; rfl
  | div =>
    change Alike C C' (divIT _ x t) (divIT _ x t)
    unfold divIT
    rw [pure_chk, pure_chk, h1, h2]
    cases h : isZero t
    · exact .inl (by simp only [lift, Bool.false_or]; rfl)
    · exact .inr ⟨by simp only [lift, Bool.or_true]; rfl, by simp only [lift, Bool.or_true]; rfl⟩
  | min =>
    refine .inl ?_
    change minIT C x t = minIT C' x t
    unfold minIT; rw [res_if_false' h1, res_if_false' h2]
  | max =>
    refine .inl ?_
    change maxIT C x t = maxIT C' x t
    unfold maxIT; rw [res_if_false' h1, res_if_false' h2]
  | hull =>
    refine .inl ?_
    change hullIT C x t = hullIT C' x t
    unfold hullIT testT
    rw [hC.isNan _ _ ht, hC'.isNan _ _ ht, hx.test hC, hx.test hC']; rfl

theorem negI_alike (hx : Has x a b) : negI C x = negI C' x := by
  unfold negI; rw [res_if_false' (hx.test hC), res_if_false' (hx.test hC')]

theorem multInv_alike (hI : SameInf C C') (hx : Has x a b) :
    Alike C C' (multInv (purePolicies B C) x) (multInv (purePolicies B C') x) := by
  unfold multInv mkNegInf mkPosInf
  rw [pure_chk, pure_chk, res_if_false (hx.test hC), res_if_false (hx.test hC'), zeroIn_eq hC hx, zeroIn_eq hC' hx,
    hI.pos, hI.neg, hI.whole]
  by_cases h0 : a ≤ 0 ∧ 0 ≤ b
  · simp only [h0]
    cases h1 : isZero x.lower <;> cases h2 : isZero x.upper
    · exact .inl rfl
    · exact .inl rfl
    · exact .inl rfl
    · exact .inr ⟨rfl, rfl⟩
  · simp only [h0]; exact .inl rfl

/-- `x = test || cond` -/
theorem if_or_alike {p : Bool} {q q' : Res (Itv T)} {m m' : Res Bool} (h : m = .ok false) (h' : m' = .ok false) (hq : q = q') :
    Alike C C' (do let b ← (lift m : Res Bool); if b || p then lift (emptyI C) else q)
      (do let b ← (lift m' : Res Bool); if b || p then lift (emptyI C') else q') := by
  subst hq
  rw [h, h']
  cases p
  · exact .inl rfl
  · exact .inr ⟨rfl, rfl⟩

theorem UnOp.I_alike (o : UnOp) (hI : o = .inv → SameInf C C') (hx : Has x a b) :
    Alike C C' (o.I (purePolicies B C) x) (o.I (purePolicies B C') x) := by
  cases o with
  | pos => exact .inl rfl
  | neg => exact .inl (negI_alike hC hC' hx)
  | abs =>
    refine .inl ?_
    change absI C x = absI C' x
    unfold absI; rw [res_if_false' (hx.test hC), res_if_false' (hx.test hC'), negI_alike hC hC' hx]
  | square =>
    refine .inl ?_
    change squareI _ x = squareI _ x
    unfold squareI; rw [pure_chk, pure_chk, res_if_false (hx.test hC), res_if_false (hx.test hC')]; rfl
  | sqrt => exact if_or_alike hC hC' (hx.test hC) (hx.test hC') rfl
  | inv => exact multInv_alike hC hC' (hI rfl) hx

theorem ctorT_alike (ht : val t = some a) : ctorT C t = ctorT C' t := by
  unfold ctorT; rw [res_if_false' (hC.isNan _ _ ht), res_if_false' (hC'.isNan _ _ ht)]

theorem powNat_alike (hx : Has x a b) (n : ℕ) :
    Alike C C' (powNat (purePolicies B C) x n) (powNat (purePolicies B C') x n) := by
  unfold powNat
  rw [pure_chk, pure_chk, res_if_false (hx.test hC), res_if_false (hx.test hC'), ctorT_alike hC hC' val_one]
  split_ifs
  · exact .inr ⟨rfl, rfl⟩
  · exact .inl rfl
  all_goals exact .inl rfl

theorem intersect_alike (hx : Has x a b) (hy : Has y c d) : Alike C C' (intersect C x y) (intersect C' x y) := by
  unfold intersect
  rw [res_if_false' (hx.test2 hC hy), res_if_false' (hx.test2 hC' hy)]
  dsimp only
  split_ifs
  · exact .inl rfl
  · exact .inr ⟨rfl, rfl⟩

theorem Fn.I_alike (f : Fn) (K : PiConst T) (fuel : ℕ) (hs : f.simple = true) (hI : f.unbounded = true → SameInf C C') (hx : Has x a b) :
    Alike C C' (f.I K fuel (purePolicies B C) x) (f.I K fuel (purePolicies B C') x) := by
  have inc : ∀ f, increasingI f (purePolicies B C) x = increasingI f (purePolicies B C') x := fun f => by
    unfold increasingI; rw [pure_chk, pure_chk, res_if_false (hx.test hC), res_if_false (hx.test hC')]; rfl
  cases f with
  | sin => cases hs
  | cos => cases hs
  | tan => cases hs
  | exp => exact .inl (inc _)
  | atan => exact .inl (inc _)
  | sinh => exact .inl (inc _)
  | tanh => exact .inl (inc _)
  | asinh => exact .inl (inc _)
  | log =>
    refine if_or_alike hC hC' (hx.test hC) (hx.test hC') ?_
    rw [pure_chk, pure_chk, (hI rfl).neg]; rfl
  | cosh =>
    refine .inl ?_
    change coshI _ x = coshI _ x
    unfold coshI; rw [pure_chk, pure_chk, res_if_false (hx.test hC), res_if_false (hx.test hC')]; rfl
  | asin =>
    change Alike C C' (asinI _ _ x) (asinI _ _ x)
    unfold asinI; simp only [Bool.or_assoc]
    exact if_or_alike hC hC' (hx.test hC) (hx.test hC') rfl
  | acos =>
    change Alike C C' (acosI _ _ x) (acosI _ _ x)
    unfold acosI; simp only [Bool.or_assoc]
    exact if_or_alike hC hC' (hx.test hC) (hx.test hC') rfl
  | acosh => exact if_or_alike hC hC' (hx.test hC) (hx.test hC') rfl
  | atanh =>
    change Alike C C' (atanhI _ x) (atanhI _ x)
    unfold atanhI; simp only [Bool.or_assoc]
    refine if_or_alike hC hC' (hx.test hC) (hx.test hC') ?_
    rw [pure_chk, pure_chk, (hI rfl).neg, (hI rfl).pos]; rfl

omit hC hC' in
theorem Post.bind_congr {α β : Type} {q : Res α} {Q : α → Prop} {f g : α → Res β} (h : Post True q Q) (hfg : ∀ a, Q a → f a = g a) :
    (q >>= f) = (q >>= g) := by
  obtain ⟨a, rfl, ha⟩ := h.ok_of
  exact hfg a ha

theorem mulTI_alike (ht : val t = some a) (hy : Has y c d) : mulTI (purePolicies B C) t y = mulTI (purePolicies B C') t y := by
  unfold mulTI; rw [pure_chk, pure_chk, res_if_false (testTI_ok hC ht hy), res_if_false (testTI_ok hC' ht hy)]; rfl

theorem width_alike (hx : Has x a b) : width (purePolicies B C) x = width (purePolicies B C') x := by
  unfold width
  rw [pure_chk, pure_chk, res_if_false (hx.test hC), res_if_false (hx.test hC')]; rfl

end
section
variable {T : Type} [Num T] [Val T] [NumLaws T] {V : Env T} {K : PiConst T} {x y : Itv T} {t : T} {a b c d : EReal} (C' : Checking T)
  (hC' : ChkLaws C')
include hC'

theorem fmod_alike (hV : V.Tight) (hi : V.IntOk) (hI : IeeeBase T) (hx : Has x a b) (hy : Has y c d) (hc : 1 ≤ c) :
    fmodAux true V.pp x y = fmodAux true (purePolicies V.B C') x y := by
  have hc0 : 0 < c := lt_of_lt_of_le zero_lt_one hc
  have hd0 : 0 < d := hc0.trans_le hy.le
  have hcb : c ≠ ⊥ := fun h => absurd hc0 (by rw [h]; simp)
  have hA := hV.dir du_tight
  unfold fmodAux
  rw [pure_chk, pure_chk, res_if_false (hx.test2 V.chk hy), res_if_false (hx.test2 hC' hy)]
  change (V.B.divDown _ _ >>= _) = (V.B.divDown _ _ >>= _)
  have tail : ∀ n q, val n = some q → (∀ ny, mulTI V.pp n y = .ok ny → Ordered ny) →
      (mulTI V.pp n y >>= fun ny => subII V.pp x ny >>= fun r => (backI true V.C r : Res (Itv T))) =
      (mulTI (purePolicies V.B C') n y >>= fun ny => subII (purePolicies V.B C') x ny >>= fun r => (backI true C' r : Res (Itv T))) := by
    intro n q hn hny
    rw [← mulTI_alike V.chk hC' hn hy]
    change (mulTI V.pp n y >>= _) = (mulTI V.pp n y >>= _)
    cases hm : mulTI V.pp n y with
    | error e => rfl
    | ok ny =>
      obtain ⟨l, u, h1, h2, h3⟩ := hny ny hm
      have k : ∀ {D : Checking T}, ChkLaws D → testII D D x ny = .ok false := fun {D} hD => by
        unfold testII
        rw [hD.isEmpty _ _ _ _ hx.lo hx.up hx.le]
        exact hD.isEmpty _ _ _ _ h1 h2 h3
      change (subII V.pp x ny >>= _) = (subII (purePolicies V.B C') x ny >>= _)
      have : subII V.pp x ny = subII (purePolicies V.B C') x ny := by
        unfold subII
        rw [pure_chk, pure_chk, res_if_false (k V.chk), res_if_false (k hC')]; rfl
      rw [this]; rfl
  by_cases ha : a = ⊥
  · subst ha
    rw [isNeg_eq hx.lo]
    simp only [EReal.bot_lt_zero, decide_true, if_true]
    refine ((hV.div du_tight).divDown _ _ _ _ hx.lo hy.lo ⟨hc0.ne', .inr ⟨hcb, hy.ne_top⟩⟩).bind_congr fun q hq => ?_
    obtain ⟨z, hz, hzd⟩ := hq
    have hz0 : z = ⊥ := by
      have := hzd.2.1
      rw [EReal.bot_div_of_pos_ne_top hc0 hy.ne_top] at this
      exact le_bot_iff.1 this
    subst hz0
    refine (intDown_bot hV hI hz).bind_congr fun n hn => ?_
    refine tail n _ hn fun ny hny => ?_
    have h1 : Post True (mulTI V.pp n y) fun w => val w.lower = some ⊥ ∧ val w.upper = some ⊥ := by
      unfold mulTI
      rw [pure_chk, res_if_false (testTI_ok V.chk hn hy), pure_scope, isNeg_eq hn]
      simp only [EReal.bot_lt_zero, decide_true, if_true]
      refine (Post.pair (hA.mulDown _ _ _ _ hn hy.up ⟨.inl (by simp), .inl hd0.ne'⟩)
        (hA.mulUp _ _ _ _ hn hy.lo ⟨.inl (by simp), .inl hc0.ne'⟩)).bind fun p hp => ?_
      obtain ⟨⟨z, hz, hzd⟩, w, hw, hwu⟩ := hp
      rw [EReal.bot_mul_of_pos hd0] at hzd
      rw [EReal.bot_mul_of_pos hc0] at hwu
      obtain rfl := le_bot_iff.1 hzd.2.1
      obtain rfl := le_bot_iff.1 (hwu.2.2 ⊥ ⟨n, hn⟩ le_rfl)
      exact ⟨hz, hw⟩
    rw [hny] at h1
    exact ⟨_, _, h1.1, h1.2, le_rfl⟩
  · obtain ⟨p, rfl⟩ : ∃ p : ℝ, a = p := ⟨a.toReal, (EReal.coe_toReal hx.ne_top ha).symm⟩
    have hb : val (if isNeg x.lower then y.lower else y.upper) = some (if p < 0 then c else d) := by
      rw [isNeg_eq hx.lo]
      by_cases h : p < 0
      · have h' : (p : EReal) < 0 := by exact_mod_cast h
        simp [h, h', hy.lo]
      · have h' : ¬ (p : EReal) < 0 := by exact_mod_cast h
        simp [h, h', hy.up]
    have hw : (if p < 0 then c else d) ≠ 0 := by split_ifs; exacts [hc0.ne', hd0.ne']
    have k := fmod_int hV hi hx.lo hb hw (quot_low hx hy hc)
    have split : ∀ g : T → Res (Itv T), (V.B.divDown x.lower (if isNeg x.lower then y.lower else y.upper) >>= fun d => V.B.intDown d >>= g) =
        ((V.B.divDown x.lower (if isNeg x.lower then y.lower else y.upper) >>= fun d => V.B.intDown d) >>= g) := fun g => by
      rw [bind_assoc]
    refine ((split _).trans (k.bind_congr fun n hn => ?_)).trans (split _).symm
    obtain ⟨k, hn, -⟩ := hn
    refine tail n _ hn fun ny hny => ?_
    have := mulTI_post hA.op V.chk hn hy
    rw [show mulTI (purePolicies V.B V.C) n y = .ok ny from hny] at this
    obtain ⟨l, u, h⟩ := Bnd.has du_tight this ((singleton_nonempty _).image2 hy.nonempty)
    exact ⟨l, u, h.lo, h.up, h.le⟩
end

section
variable {T : Type} [Num T] [Val T] [NumLaws T] {V : Env T} {K : PiConst T} {x y : Itv T} {t : T} {a b c d : EReal} (sp : ChkSpec)
  (nd : Bool)

theorem cos_alike (hV : V.Tight) (hi : V.IntOk) (hI : IeeeBase T) (hf : V.FnOk LeB GeB .cos) (hK : PiOk LeB GeB K) (hK' : PiPos K)
    (fuel : ℕ) : ∀ (same : Bool) (x : Itv T) (a b : EReal), Has x a b →
      cosAux K same fuel V.pp x = cosAux K same fuel (V.recheck sp nd).pp x := by
  let W := V.recheck sp nd
  have hA := hV.dir du_tight
  obtain ⟨c, d, hy, hc, -, -, hmem⟩ := period_has hK.piTwiceLower hK.piTwiceUpper hK'.piTwiceLower
  obtain ⟨c', d', hp, hc', -, -, -⟩ := period_has hK.piLower hK.piUpper hK'.piLower
  induction fuel with
  | zero => intro same x a b _; rfl
  | succ fuel ih =>
    intro same x a b hx
    by_cases ha : a = ⊥
    · subst ha
      exact (cos_bot hV hI hK hK' hx same fuel).trans (cos_bot (V := W) hV hI hK hK' hx same fuel).symm
    obtain ⟨p, rfl⟩ : ∃ p : ℝ, a = p := ⟨a.toReal, (EReal.coe_toReal hx.ne_top ha).symm⟩
    obtain ⟨tmp, h1, ⟨k, hk⟩, -⟩ := fmod_period hV hi hx rfl hy hc
    obtain ⟨r₀, hr₀⟩ := hx.nonempty
    obtain ⟨tl, tu, it⟩ := has_of_mem (hk r₀ hr₀ _ hmem)
    have h1' : fmodAux true W.pp x (piTwiceI K) = .ok tmp := (fmod_alike W.C W.chk hV hi hI hx hy hc).symm.trans h1
    unfold cosAux
    rw [pure_chk, pure_chk, res_if_false (hx.test V.chk), res_if_false (hx.test W.chk)]
    change (fmodAux true V.pp x (piTwiceI K) >>= _) = (fmodAux true W.pp x (piTwiceI K) >>= _)
    rw [show fmodAux true V.pp x (piTwiceI K) = .ok tmp from h1, h1']
    change (width V.pp tmp >>= _) = (width W.pp tmp >>= _)
    rw [show width W.pp tmp = width V.pp tmp from (width_alike V.chk W.chk it).symm]
    cases hw : width V.pp tmp with
    | error e => rfl
    | ok w =>
      change (if Num.le K.piTwiceLower w then _ else _) = (if Num.le K.piTwiceLower w then _ else _)
      cases Num.le K.piTwiceLower w with
      | true => rfl
      | false =>
        change (if Num.le K.piUpper tmp.lower then _ else _) = (if Num.le K.piUpper tmp.lower then _ else _)
        cases Num.le K.piUpper tmp.lower with
        | false => rfl
        | true =>
          change (subII V.pp tmp (piI K) >>= _) = (subII W.pp tmp (piI K) >>= _)
          rw [show subII W.pp tmp (piI K) = subII V.pp tmp (piI K) from (subII_alike V.chk W.chk it hp).symm]
          obtain ⟨t, ht, hbt⟩ := (subII_post hA.op V.chk it hp).total
          obtain ⟨p', q', it'⟩ := hbt.has du_tight (it.nonempty.image2 hp.nonempty)
          rw [show subII V.pp tmp (piI K) = .ok t from ht]
          change (cosAux K true fuel V.pp t >>= _) = (cosAux K true fuel W.pp t >>= _)
          rw [← ih true t p' q' it']
          cases hc : cosAux K true fuel V.pp t with
          | error e => rfl
          | ok z =>
            obtain ⟨N, hN⟩ := cos_post hV hi hI du_weak hf hK hK' it'
            have hz := hN (max N fuel) (le_max_left _ _) true
            rw [cos_fuel_le hc (le_max_right _ _)] at hz
            obtain ⟨r₁, hr₁⟩ := it'.nonempty
            obtain ⟨zl, zu, iz⟩ := has_of_mem (hz.1 r₁ hr₁)
            change (negI V.C z >>= _) = (negI W.C z >>= _)
            rw [show negI W.C z = negI V.C z from (negI_alike V.chk W.chk iz).symm]
            cases same with
            | true => rfl
            | false =>
              obtain ⟨w, hw, iw⟩ := negI_has hV.neg V.chk iz
              rw [hw]
              exact (reItv_ok V.chk iw).trans (reItv_ok W.chk iw).symm

theorem sin_alike (hV : V.Tight) (hi : V.IntOk) (hI : IeeeBase T) (hf : V.FnOk LeB GeB .cos) (hK : PiOk LeB GeB K) (hK' : PiPos K)
    (fuel : ℕ) (hx : Has x a b) : sinI K fuel V.pp x = sinI K fuel (V.recheck sp nd).pp x := by
  let W := V.recheck sp nd
  have hA := hV.dir du_tight
  obtain ⟨c, hc, hc'⟩ := hK.piHalfLower
  obtain ⟨d, hd, hd'⟩ := hK.piHalfUpper
  change c ≤ _ at hc'
  change _ ≤ d at hd'
  have ip : Has (piHalfI K) c d :=
    ⟨hc, hd, (lt_of_le_of_lt hc' (EReal.coe_lt_top _)).ne, (lt_of_lt_of_le (EReal.bot_lt_coe _) hd').ne', le_trans hc' hd'⟩
  obtain ⟨t, ht, hbt⟩ := (subII_post hA.op V.chk hx ip).total
  obtain ⟨p', q', it⟩ := hbt.has du_tight (hx.nonempty.image2 ip.nonempty)
  unfold sinI
  rw [pure_chk, pure_chk, res_if_false (hx.test V.chk), res_if_false (hx.test W.chk)]
  change (subII V.pp x (piHalfI K) >>= _) = (subII W.pp x (piHalfI K) >>= _)
  rw [show subII W.pp x (piHalfI K) = subII V.pp x (piHalfI K) from (subII_alike V.chk W.chk hx ip).symm,
    show subII V.pp x (piHalfI K) = .ok t from ht]
  change (cosAux K true fuel V.pp t >>= _) = (cosAux K true fuel W.pp t >>= _)
  rw [← cos_alike sp nd hV hi hI hf hK hK' fuel true t p' q' it]
  cases hc : cosAux K true fuel V.pp t with
  | error e => rfl
  | ok z =>
    obtain ⟨N, hN⟩ := cos_post hV hi hI du_weak hf hK hK' it
    have hz := hN (max N fuel) (le_max_left _ _) true
    rw [cos_fuel_le hc (le_max_right _ _)] at hz
    obtain ⟨r₁, hr₁⟩ := it.nonempty
    obtain ⟨zl, zu, iz⟩ := has_of_mem (hz.1 r₁ hr₁)
    exact (reItv_ok V.chk iz).trans (reItv_ok W.chk iz).symm

theorem tan_alike (hV : V.Tight) (hi : V.IntOk) (hI : IeeeBase T) (hK : PiOk LeB GeB K) (hK' : PiPos K) (hS : SameInf V.C (V.recheck sp nd).C)
    (hx : Has x a b) : tanI K V.pp x = tanI K (V.recheck sp nd).pp x := by
  let W := V.recheck sp nd
  obtain ⟨c, d, hy, hc, -, -, hmem⟩ := period_has hK.piLower hK.piUpper hK'.piLower
  replace hS : SameInf V.C W.C := hS
  unfold tanI
  rw [pure_chk, pure_chk, res_if_false (hx.test V.chk), res_if_false (hx.test W.chk), hS.whole]
  change (fmodAux true V.pp x (piI K) >>= _) = (fmodAux true W.pp x (piI K) >>= _)
  rw [show fmodAux true W.pp x (piI K) = fmodAux true V.pp x (piI K) from (fmod_alike W.C W.chk hV hi hI hx hy hc).symm]
  by_cases ha : a = ⊥
  · subst ha
    obtain ⟨tmp, h1, h2, h3⟩ := (fmod_bot hV hI hx hy (lt_of_lt_of_le zero_lt_one hc)).total
    rw [show fmodAux true V.pp x (piI K) = .ok tmp from h1]
    have g1 : Num.le K.piHalfLower tmp.lower = false := by
      rw [Bool.eq_false_iff]
      intro h
      obtain ⟨_, _, _, h, _⟩ := (NumLaws.le_iff _ _).1 h
      rw [h2] at h; cases h
    change ((if Num.le K.piHalfLower tmp.lower = true then _ else (pure tmp : Res (Itv T))) >>= _ : Res (Itv T)) =
      ((if Num.le K.piHalfLower tmp.lower = true then _ else (pure tmp : Res (Itv T))) >>= _ : Res (Itv T))
    rw [g1]; rfl
  · obtain ⟨p, rfl⟩ : ∃ p : ℝ, a = p := ⟨a.toReal, (EReal.coe_toReal hx.ne_top ha).symm⟩
    obtain ⟨tmp, h1, ⟨k, hk⟩, -⟩ := fmod_period hV hi hx rfl hy hc
    obtain ⟨r₀, hr₀⟩ := hx.nonempty
    obtain ⟨tl, tu, it⟩ := has_of_mem (hk r₀ hr₀ _ hmem)
    rw [show fmodAux true V.pp x (piI K) = .ok tmp from h1]
    change ((if Num.le K.piHalfLower tmp.lower = true then subII V.pp tmp (piI K) else (pure tmp : Res (Itv T))) >>= _ : Res (Itv T)) =
      ((if Num.le K.piHalfLower tmp.lower = true then subII W.pp tmp (piI K) else (pure tmp : Res (Itv T))) >>= _ : Res (Itv T))
    rw [show subII W.pp tmp (piI K) = subII V.pp tmp (piI K) from (subII_alike V.chk W.chk it hy).symm]
    rfl

theorem Fn.alike {f : Fn} {inf : Prop} (hf : V.ElemOk K inf f) (hI : inf → SameInf V.C (V.recheck sp nd).C) (fuel : ℕ) (hx : Has x a b) :
    Alike V.C (V.recheck sp nd).C (f.I K fuel V.pp x) (f.I K fuel (V.recheck sp nd).pp x) := by
  by_cases hs : f.simple = true
  · exact Fn.I_alike V.chk (V.recheck sp nd).chk f K fuel hs (fun h => hI (hf.2.2.1 h)) hx
  · obtain ⟨hB, hf, hu, ht⟩ := hf
    obtain ⟨hV, hi, hE, hP⟩ := ht (by simpa using hs)
    cases f with
    | sin => exact .inl (sin_alike sp nd hV hi hE hf hB.ok hP fuel hx)
    | cos => exact .inl (cos_alike sp nd hV hi hE hf hB.ok hP fuel false x a b hx)
    | tan => exact .inl (tan_alike sp nd hV hi hE hB.ok hP (hI (hu rfl)) hx)
    | _ => exact absurd rfl hs

theorem pow_alike (hV : V.Signed) {k : ℤ} (hI : k < 0 → SameInf V.C (V.recheck sp nd).C) (hx : Has x a b) :
    Alike V.C (V.recheck sp nd).C (powI V.pp x k) (powI (V.recheck sp nd).pp x k) := by
  let W := V.recheck sp nd
  unfold powI
  rw [pure_chk, pure_chk, res_if_false (hx.test V.chk), res_if_false (hx.test W.chk)]
  split_ifs with h1 h2
  · exact .inl rfl
  · have hn : 0 < (-k).toNat := by omega
    obtain ⟨z, hz, hz', -⟩ := (powNat_post (hV.dir du_signed) V.chk hx hn).ok_of
    obtain ⟨r₀, hr₀⟩ := hx.nonempty
    obtain ⟨zl, zu, iz⟩ := has_of_mem (hz' r₀ hr₀)
    have h' : powNat W.pp x (-k).toNat = .ok z := by
      rcases powNat_alike (B := V.B) V.chk W.chk hx (-k).toNat with h | ⟨h, h'⟩
      · exact h.symm.trans hz
      · rw [hz] at h
        rcases emptyI_spec (T := T) V.checks V.ndebug with ⟨-, h1⟩ | ⟨-, w, h1, h2⟩
        · cases h.trans h1
        · cases h.trans h1
          exact absurd (h2 _ _ iz.lo iz.up) (not_lt.2 iz.le)
    change Alike V.C W.C (powNat V.pp x _ >>= _) (powNat W.pp x _ >>= _)
    rw [show powNat V.pp x (-k).toNat = .ok z from hz, h']
    exact multInv_alike V.chk W.chk (hI h1) iz
  · exact powNat_alike V.chk W.chk hx _
end

/-! ## Formulas -/

section
variable {T : Type} [Num T] [Val T] [NumLaws T]

/-- The operation `a`, mode-free `q`, returns `z` in the configuration `U`. -/
def Fine (U : Env T) {α : Type} (a : Policies (M U.ctl.W) T → M U.ctl.W α) (q : Res α) (z : α) : Prop :=
  q = .ok z ∧ ∀ {I J : Inv U.ctl.W} {P : Policies (M U.ctl.W) T}, PSim I J P U.B U.C → Ends I (· = .emptyCreated) (a P) (.ok z)

/-- An empty interval was created: the operation throws if the configuration forbids that; otherwise, if `h`, its result is `Bad`. -/
def Gone (U : Env T) (h : Prop) {α : Type} (Bad : α → Prop) (a : Policies (M U.ctl.W) T → M U.ctl.W α) (q : Res α) : Prop :=
  (U.checks.forbidsEmpty = true → ∀ {I J : Inv U.ctl.W} {P : Policies (M U.ctl.W) T}, PSim I J P U.B U.C →
    Ends I (· = .emptyCreated) (a P) (.error .emptyCreated)) ∧
  (U.checks.forbidsEmpty = false → h → ∃ z, q = .ok z ∧ Bad z)

section
variable {U : Env T} {h : Prop} {α β : Type} {Bad : α → Prop} {Bad' : β → Prop} {q : Res α} {q' : Res β}
  {a : Policies (M U.ctl.W) T → M U.ctl.W α} {a' : Policies (M U.ctl.W) T → M U.ctl.W β}
  {f : Policies (M U.ctl.W) T → α → M U.ctl.W β} {g : α → Res β} {x : α} {y : β}

theorem Fine.of_sim (h1 : q = .ok x) (h2 : ∀ {I J : Inv U.ctl.W} {P : Policies (M U.ctl.W) T}, PSim I J P U.B U.C →
    Sim I (a P) q) : Fine U a q x :=
  ⟨h1, fun hP => .of_sim (h1 ▸ h2 hP) fun e h => by cases h⟩

theorem Gone.of_empty {a : Policies (M U.ctl.W) T → M U.ctl.W (Itv T)} {q : Res (Itv T)} (h1 : q = emptyI U.C)
    (h2 : ∀ {I J : Inv U.ctl.W} {P : Policies (M U.ctl.W) T}, PSim I J P U.B U.C → Sim I (a P) q) : Gone U h Void a q := by
  rcases emptyI_spec (T := T) U.checks U.ndebug with ⟨hE, hz⟩ | ⟨hE, z, hz, hv⟩
  · refine ⟨fun _ {_ _ _} hP => .of_sim ((h1.trans hz) ▸ h2 hP) fun e h => ?_, fun h => ?_⟩
    · cases h; rfl
    · rw [hE] at h; cases h
  · refine ⟨fun h => ?_, fun _ _ => ⟨z, h1.trans hz, hv⟩⟩
    rw [hE] at h; cases h

theorem Fine.bind (h1 : Fine U a q x) (h2 : Fine U (fun P => f P x) (g x) y) : Fine U (fun P => a P >>= f P) (q >>= g) y :=
  ⟨by rw [h1.1]; exact h2.1, fun hP => (h1.2 hP).bind_ok (h2.2 hP)⟩

theorem Fine.bind_gone (h1 : Fine U a q x) (h2 : Gone U h Bad' (fun P => f P x) (g x)) :
    Gone U h Bad' (fun P => a P >>= f P) (q >>= g) :=
  ⟨fun hE {_ _ _} hP => (h1.2 hP).bind_ok (h2.1 hE hP), fun hE hh => by rw [h1.1]; exact h2.2 hE hh⟩

theorem Gone.bind (h1 : Gone U h Bad a q) (h2 : U.checks.forbidsEmpty = false → h → ∀ x, Bad x → ∃ z, g x = .ok z ∧ Bad' z) :
    Gone U h Bad' (fun P => a P >>= f P) (q >>= g) :=
  ⟨fun hE {_ _ _} hP => (h1.1 hE hP).bind_err, fun hE hh => by
    obtain ⟨x, hx, hb⟩ := h1.2 hE hh
    rw [hx]; exact h2 hE hh x hb⟩

theorem Fine.pair (h1 : Fine U a q x) (h2 : Fine U a' q' y) : Fine U (fun P => BI.pair (a P) (a' P)) (BI.pair q q') (x, y) :=
  ⟨by rw [h1.1, h2.1]; rfl, fun hP => (h1.2 hP).pair (h2.2 hP)⟩

theorem Gone.pair_left (h1 : Gone U h Bad a q) (h2 : Fine U a' q' y) :
    Gone U h (fun p => Bad p.1 ∨ Bad' p.2) (fun P => BI.pair (a P) (a' P)) (BI.pair q q') :=
  ⟨fun hE {_ _ _} hP => (h1.1 hE hP).pair (h2.2 hP), fun hE hh => by
    obtain ⟨x, hx, hb⟩ := h1.2 hE hh
    exact ⟨(x, y), by rw [hx, h2.1]; rfl, .inl hb⟩⟩

theorem Gone.pair_right (h1 : Fine U a q x) (h2 : Gone U h Bad' a' q') :
    Gone U h (fun p => Bad p.1 ∨ Bad' p.2) (fun P => BI.pair (a P) (a' P)) (BI.pair q q') :=
  ⟨fun hE {_ _ _} hP => (h1.2 hP).pair (h2.1 hE hP), fun hE hh => by
    obtain ⟨y, hy, hb⟩ := h2.2 hE hh
    exact ⟨(x, y), by rw [h1.1, hy]; rfl, .inr hb⟩⟩

theorem Gone.pair (h1 : Gone U h Bad a q) (h2 : Gone U h Bad' a' q') :
    Gone U h (fun p => Bad p.1 ∨ Bad' p.2) (fun P => BI.pair (a P) (a' P)) (BI.pair q q') :=
  ⟨fun hE {_ _ _} hP => (h1.1 hE hP).pair (h2.1 hE hP), fun hE hh => by
    obtain ⟨x, hx, hb⟩ := h1.2 hE hh
    obtain ⟨y, hy, -⟩ := h2.2 hE hh
    exact ⟨(x, y), by rw [hx, hy]; rfl, .inl hb⟩⟩
end

/-! An operation on an empty interval creates another one. -/

section
variable (U : Env T) {x y : Itv T} {t : T} (hE : U.checks.forbidsEmpty = false)
include hE

private theorem empty_void {q : Res (Itv T)} (h : q = emptyI U.C) : ∃ z, q = .ok z ∧ Void z := by
  obtain ⟨z, hz, hv⟩ := U.emptyI_void hE
  exact ⟨z, h.trans hz, hv⟩

theorem BinOp.II_void (o : BinOp) (ho : o ≠ .hull) (h : Void x ∨ Void y) : ∃ z, o.II U.pp x y = .ok z ∧ Void z := by
  have ht : testII U.C U.C x y = .ok true := by
    rcases h with h | h
    · exact test2_left U hE h
    · exact test2_right U hE h
  refine empty_void U hE ?_
  cases o with
  | add => change addII U.pp x y = _; unfold addII; rw [pure_chk, ht]; rfl
  | sub => change subII U.pp x y = _; unfold subII; rw [pure_chk, ht]; rfl
  | mul => change mulII U.pp x y = _; unfold mulII; rw [pure_chk, ht]; rfl
  | div => change divII U.pp x y = _; unfold divII; rw [pure_chk, ht]; rfl
  | min => change minII U.C x y = _; unfold minII; rw [ht]; rfl
  | max => change maxII U.C x y = _; unfold maxII; rw [ht]; rfl
  | hull => exact absurd rfl ho

theorem BinOp.TI_void (o : BinOp) (ho : o ≠ .hull) (ht : val t ≠ none) (h : Void y) : ∃ z, o.TI U.pp t y = .ok z ∧ Void z := by
  have ht := testTI_void U hE h ht
  refine empty_void U hE ?_
  cases o with
  | add => change addTI U.pp t y = _; unfold addTI; rw [pure_chk, ht]; rfl
  | sub => change subTI U.pp t y = _; unfold subTI; rw [pure_chk, ht]; rfl
  | mul => change mulTI U.pp t y = _; unfold mulTI; rw [pure_chk, ht]; rfl
  | div => change divTI U.pp t y = _; unfold divTI; rw [pure_chk, ht]; rfl
  | min => change minTI U.C t y = _; unfold minTI; rw [ht]; rfl
  | max => change maxTI U.C t y = _; unfold maxTI; rw [ht]; rfl
  | hull => exact absurd rfl ho

theorem BinOp.IT_void (o : BinOp) (ho : o ≠ .hull) (ht : val t ≠ none) (h : Void x) : ∃ z, o.IT U.pp x t = .ok z ∧ Void z := by
  have h1 := testIT_void (t := t) U hE h
  cases o with
  | add => exact BinOp.TI_void U hE .add ho ht h
  | mul => exact BinOp.TI_void U hE .mul ho ht h
  | sub => refine empty_void U hE ?_; change subIT U.pp x t = _; unfold subIT; rw [pure_chk, h1]; rfl
  | div => refine empty_void U hE ?_; change divIT U.pp x t = _; unfold divIT; rw [pure_chk, h1]; rfl
  | min => refine empty_void U hE ?_; change minIT U.C x t = _; unfold minIT; rw [h1]; rfl
  | max => refine empty_void U hE ?_; change maxIT U.C x t = _; unfold maxIT; rw [h1]; rfl
  | hull => exact absurd rfl ho

theorem UnOp.I_void (o : UnOp) (h : Void x) : ∃ z, o.I U.pp x = .ok z ∧ Void z := by
  have ht := h.test U hE
  cases o with
  | pos => exact ⟨x, rfl, h⟩
  | neg => refine empty_void U hE ?_; change negI U.C x = _; unfold negI; rw [ht]; rfl
  | abs => refine empty_void U hE ?_; change absI U.C x = _; unfold absI; rw [ht]; rfl
  | square => refine empty_void U hE ?_; change squareI U.pp x = _; unfold squareI; rw [pure_chk, ht]; rfl
  | sqrt => refine empty_void U hE ?_; change sqrtI U.pp x = _; unfold sqrtI; rw [pure_chk, ht]; rfl
  | inv => refine empty_void U hE ?_; change multInv U.pp x = _; unfold multInv; rw [pure_chk, ht]; rfl

theorem powI_void (k : ℤ) (h : Void x) : ∃ z, powI U.pp x k = .ok z ∧ Void z := by
  refine empty_void U hE ?_
  unfold powI; rw [pure_chk, h.test U hE]; rfl

theorem intersect_void (h : Void x ∨ Void y) : ∃ z, intersect U.C x y = .ok z ∧ Void z := by
  have ht : testII U.C U.C x y = .ok true := by
    rcases h with h | h
    · exact test2_left U hE h
    · exact test2_right U hE h
  refine empty_void U hE ?_
  unfold intersect; rw [ht]; rfl

theorem Fn.I_void (f : Fn) (K : PiConst T) {fuel : ℕ} (hn : f.uses = .cos → 0 < fuel) (h : Void x) : ∃ z, f.I K fuel U.pp x = .ok z ∧ Void z := by
  have ht := h.test U hE
  refine empty_void U hE ?_
  have inc : ∀ f, increasingI f U.pp x = emptyI U.C := fun f => by unfold increasingI; rw [pure_chk, ht]; rfl
  cases f with
  | exp => exact inc _
  | atan => exact inc _
  | sinh => exact inc _
  | tanh => exact inc _
  | asinh => exact inc _
  | log => change logI U.pp x = _; unfold logI; rw [pure_chk, ht]; rfl
  | cos =>
    obtain ⟨fuel, rfl⟩ := Nat.exists_eq_add_of_lt (hn rfl)
    change cosAux K false (0 + fuel + 1) U.pp x = _; unfold cosAux; rw [pure_chk, ht]; rfl
  | sin => change sinI K fuel U.pp x = _; unfold sinI; rw [pure_chk, ht]; rfl
  | tan => change tanI K U.pp x = _; unfold tanI; rw [pure_chk, ht]; rfl
  | asin => change asinI K U.pp x = _; unfold asinI; rw [pure_chk, ht]; rfl
  | acos => change acosI K U.pp x = _; unfold acosI; rw [pure_chk, ht]; rfl
  | cosh => change coshI U.pp x = _; unfold coshI; rw [pure_chk, ht]; rfl
  | acosh => change acoshI U.pp x = _; unfold acoshI; rw [pure_chk, ht]; rfl
  | atanh => change atanhI U.pp x = _; unfold atanhI; rw [pure_chk, ht]; rfl
end

section
variable (V : Env T) (sp : ChkSpec) (nd : Bool)

/-- One operation under two policies. -/
def Pick (V W : Env T) (q q' : Res (Itv T)) : Prop :=
  (∃ z, (γ z).Nonempty ∧ q = .ok z ∧ q' = .ok z) ∨ q = emptyI V.C ∧ q' = emptyI W.C

variable {V sp nd} {W : Env T} {q q' : Res (Itv T)} {S : Set ℝ} {x y : Itv T} {t : T}

theorem pick_eq (h : ∃ z, q = .ok z ∧ (γ z).Nonempty) (ha : Alike V.C W.C q q') : Pick V W q q' := by
  obtain ⟨z, rfl, hz⟩ := h
  rcases ha with h | ⟨h, -⟩
  · exact .inl ⟨z, hz, rfl, h.symm⟩
  · exfalso
    rcases emptyI_spec (T := T) V.checks V.ndebug with ⟨-, h1⟩ | ⟨-, w, h1, h2⟩
    · cases h.trans h1
    · cases h.trans h1
      rw [h2.gamma] at hz; exact hz.ne_empty rfl

theorem pick_of (h1 : S.Nonempty → Out False S q) (h2 : S = ∅ → q = emptyI V.C) (h3 : S = ∅ → q' = emptyI W.C)
    (ha : Alike V.C W.C q q') : Pick V W q q' := by
  rcases S.eq_empty_or_nonempty with h | h
  · exact .inr ⟨h2 h, h3 h⟩
  · rcases h1 h with ⟨z, hz, hS⟩ | ⟨_, ⟨⟨⟩, -⟩, -⟩
    exact pick_eq ⟨z, hz, h.mono hS⟩ ha

theorem Fn.I_pick (f : Fn) {K : PiConst T} (hV : V.Directed) (hf : V.ElemOk K (InfBase T) f) (ha : f ≠ .atanh) (hx : (γ x).Nonempty) :
    ∃ N, ((f.uses == .cos) = false → N = 0) ∧
      ((∃ z, (γ z).Nonempty ∧ ∀ fuel ≥ N, f.I K fuel V.pp x = .ok z ∧ f.I K fuel (V.recheck sp nd).pp x = .ok z) ∨
        ∀ fuel, f.I K fuel V.pp x = emptyI V.C ∧ f.I K fuel (V.recheck sp nd).pp x = emptyI (V.recheck sp nd).C) := by
  obtain ⟨a, b, ix⟩ := has_of_nonempty hx
  have hal := fun fuel => Fn.alike (V := V) sp nd hf (fun h => sameInf h _ _ _ _) fuel ix
  rcases (γ x ∩ f.dom).eq_empty_or_nonempty with h | h
  · by_cases hs : f.simple = true
    · exact ⟨0, fun _ => rfl, .inr fun fuel => ⟨Fn.I_outside V hs hx h fun h => absurd h ha,
        Fn.I_outside (V.recheck sp nd) hs hx h fun h => absurd h ha⟩⟩
    · cases f with
      | tan =>
        obtain ⟨hK, hf, hu, ht⟩ := hf
        obtain ⟨hT, hI, hE, hP⟩ := ht rfl
        refine ⟨0, fun _ => rfl, .inl ?_⟩
        have : ∃ z, tanI K V.pp x = .ok z ∧ (γ z).Nonempty := by
          rcases tan_cases hT hI hE du_weak hf hK.ok hP ix with h | h
          · obtain ⟨w, hw, h1, h2⟩ := whole_ok (V.infLaws (hu rfl))
            exact ⟨w, h.trans hw, 0, _, _, h1, h2, bot_le, le_top⟩
          · obtain ⟨w, hw, hr⟩ := h.ok_of
            obtain ⟨r, hr'⟩ := hx
            exact ⟨w, hw, _, (hr r hr').2⟩
        obtain ⟨z, hz, hne⟩ := this
        exact ⟨z, hne, fun fuel _ => ⟨hz, (tan_alike sp nd hT hI hE hK.ok hP (sameInf (hu rfl) _ _ _ _) ix).symm.trans hz⟩⟩
      | sin => exact absurd h (by rw [show Fn.sin.dom = univ from rfl, inter_univ]; exact hx.ne_empty)
      | cos => exact absurd h (by rw [show Fn.cos.dom = univ from rfl, inter_univ]; exact hx.ne_empty)
      | _ => exact absurd rfl hs
  · obtain ⟨q, N, h1, h2, h3⟩ := Fn.I_out (B := False) False.elim f hV .inl hf h
    rcases h1 with ⟨z, rfl, hS⟩ | ⟨_, ⟨⟨⟩, -⟩, -⟩
    have hne : (γ z).Nonempty := (h.image _).mono hS
    refine ⟨N, h2, .inl ⟨z, hne, fun fuel hn => ?_⟩⟩
    rcases pick_eq (V := V) (W := V.recheck sp nd) ⟨z, h3 fuel hn, hne⟩ (hal fuel) with ⟨w, -, h4, h5⟩ | ⟨h4, -⟩
    · cases h4.symm.trans (h3 fuel hn)
      exact ⟨h4, h5⟩
    · rcases emptyI_spec (T := T) V.checks V.ndebug with ⟨-, h1⟩ | ⟨-, w, h1, h2⟩
      · cases ((h3 fuel hn).symm.trans h4).trans h1
      · cases ((h3 fuel hn).symm.trans h4).trans h1
        rw [h2.gamma] at hne; exact absurd rfl hne.ne_empty

variable (V sp nd)

/-- A formula under two policies: the same interval, or an empty interval was created under both. -/
def Fate (h : Prop) (N : ℕ) (a : ℕ → (U : Env T) → Policies (M U.ctl.W) T → M U.ctl.W (Itv T)) (q : ℕ → Env T → Res (Itv T)) : Prop :=
  (∃ z, (γ z).Nonempty ∧ ∀ fuel ≥ N, Fine V (a fuel V) (q fuel V) z ∧ Fine (V.recheck sp nd) (a fuel (V.recheck sp nd)) (q fuel (V.recheck sp nd)) z) ∨
  ∀ fuel ≥ N, Gone V h Void (a fuel V) (q fuel V) ∧ Gone (V.recheck sp nd) h Void (a fuel (V.recheck sp nd)) (q fuel (V.recheck sp nd))

variable {h : Prop} {N N' : ℕ} {a a' : ℕ → (U : Env T) → Policies (M U.ctl.W) T → M U.ctl.W (Itv T)} {q q' : ℕ → Env T → Res (Itv T)}

theorem Fate.step {f : (U : Env T) → Policies (M U.ctl.W) T → Itv T → M U.ctl.W (Itv T)} {g : Env T → Itv T → Res (Itv T)}
    (H : Fate V sp nd h N a q) (hg : ∀ x, (γ x).Nonempty → Pick V (V.recheck sp nd) (g V x) (g (V.recheck sp nd) x))
    (hs : ∀ (U : Env T) x {I J : Inv U.ctl.W} {P : Policies (M U.ctl.W) T}, PSim I J P U.B U.C → Sim I (f U P x) (g U x))
    (hv : h → ∀ U : Env T, U.checks.forbidsEmpty = false → ∀ x, Void x → ∃ z, g U x = .ok z ∧ Void z) :
    Fate V sp nd h N (fun fuel U P => a fuel U P >>= f U P) (fun fuel U => q fuel U >>= g U) := by
  rcases H with ⟨x, hx, H⟩ | H
  · rcases hg x hx with ⟨z, hz, h1, h2⟩ | ⟨h1, h2⟩
    · exact Or.inl ⟨z, hz, fun fuel hn => ⟨(H fuel hn).1.bind (.of_sim h1 (hs _ x)), (H fuel hn).2.bind (.of_sim h2 (hs _ x))⟩⟩
    · exact Or.inr fun fuel hn => ⟨(H fuel hn).1.bind_gone (.of_empty h1 (hs _ x)), (H fuel hn).2.bind_gone (.of_empty h2 (hs _ x))⟩
  · exact Or.inr fun fuel hn => ⟨(H fuel hn).1.bind fun hE hh x hx => hv hh _ hE x hx,
      (H fuel hn).2.bind fun hE hh x hx => hv hh _ hE x hx⟩

theorem Fate.step₂ {f : (U : Env T) → Policies (M U.ctl.W) T → Itv T → Itv T → M U.ctl.W (Itv T)} {g : Env T → Itv T → Itv T → Res (Itv T)}
    (H : Fate V sp nd h N a q) (H' : Fate V sp nd h N' a' q')
    (hg : ∀ x y, (γ x).Nonempty → (γ y).Nonempty → Pick V (V.recheck sp nd) (g V x y) (g (V.recheck sp nd) x y))
    (hs : ∀ (U : Env T) x y {I J : Inv U.ctl.W} {P : Policies (M U.ctl.W) T}, PSim I J P U.B U.C → Sim I (f U P x y) (g U x y))
    (hv : h → ∀ U : Env T, U.checks.forbidsEmpty = false → ∀ x y, Void x ∨ Void y → ∃ z, g U x y = .ok z ∧ Void z) :
    Fate V sp nd h (max N N') (fun fuel U P => BI.pair (a fuel U P) (a' fuel U P) >>= fun p => f U P p.1 p.2)
      (fun fuel U => BI.pair (q fuel U) (q' fuel U) >>= fun p => g U p.1 p.2) := by
  have l : ∀ {fuel}, fuel ≥ max N N' → fuel ≥ N := fun h => (le_max_left _ _).trans h
  have r : ∀ {fuel}, fuel ≥ max N N' → fuel ≥ N' := fun h => (le_max_right _ _).trans h
  have gone : ∀ {U : Env T} {fuel : ℕ}, Gone U h (fun p : Itv T × Itv T => Void p.1 ∨ Void p.2)
      (fun P => BI.pair (a fuel U P) (a' fuel U P)) (BI.pair (q fuel U) (q' fuel U)) →
      Gone U h Void (fun P => BI.pair (a fuel U P) (a' fuel U P) >>= fun p => f U P p.1 p.2)
        (BI.pair (q fuel U) (q' fuel U) >>= fun p => g U p.1 p.2) :=
    fun H => H.bind fun hE hh p hp => hv hh _ hE p.1 p.2 hp
  rcases H with ⟨x, hx, H⟩ | H <;> rcases H' with ⟨y, hy, H'⟩ | H'
  · rcases hg x y hx hy with ⟨z, hz, h1, h2⟩ | ⟨h1, h2⟩
    · exact Or.inl ⟨z, hz, fun fuel hn => ⟨((H fuel (l hn)).1.pair (H' fuel (r hn)).1).bind (.of_sim h1 (hs _ x y)),
        ((H fuel (l hn)).2.pair (H' fuel (r hn)).2).bind (.of_sim h2 (hs _ x y))⟩⟩
    · exact Or.inr fun fuel hn => ⟨((H fuel (l hn)).1.pair (H' fuel (r hn)).1).bind_gone (.of_empty h1 (hs _ x y)),
        ((H fuel (l hn)).2.pair (H' fuel (r hn)).2).bind_gone (.of_empty h2 (hs _ x y))⟩
  · exact Or.inr fun fuel hn => ⟨gone (.pair_right (H fuel (l hn)).1 (H' fuel (r hn)).1), gone (.pair_right (H fuel (l hn)).2 (H' fuel (r hn)).2)⟩
  · exact Or.inr fun fuel hn => ⟨gone ((H fuel (l hn)).1.pair_left (H' fuel (r hn)).1), gone ((H fuel (l hn)).2.pair_left (H' fuel (r hn)).2)⟩
  · exact Or.inr fun fuel hn => ⟨gone ((H fuel (l hn)).1.pair (H' fuel (r hn)).1), gone ((H fuel (l hn)).2.pair (H' fuel (r hn)).2)⟩

theorem Expr.eval_fate {K : PiConst T} (hV : V.Directed) (ρ : ℕ → Itv T) (hρ : ∀ i, (γ (ρ i)).Nonempty) (e : Expr T)
    (hs : e.Supported V K (InfBase T)) (hf : e.Finite) (h : Prop) (hh : h → e.hullFree = true) :
    ∃ N, (e.nests = false → N = 0) ∧ Fate V sp nd h N (fun fuel _ P => e.eval K fuel P ρ) (fun fuel U => e.eval K fuel U.pp ρ) := by
  have hi : ∀ {p : Prop}, (p → InfBase T) → p → SameInf V.C (V.recheck sp nd).C := fun h hp => sameInf (h hp) _ _ _ _
  let W := V.recheck sp nd
  induction e with
  | var i => exact ⟨0, fun _ => rfl, Or.inl ⟨ρ i, hρ i, fun _ _ => ⟨.of_sim rfl fun _ => Sim.pure _, .of_sim rfl fun _ => Sim.pure _⟩⟩⟩
  | num t =>
    obtain ⟨r, hr⟩ := hf
    obtain ⟨z, hz, -, -, e⟩ := C36_num V hr
    have hz' : ctorT W.C t = .ok z := (ctorT_alike V.chk W.chk hr).symm.trans hz
    have sim : ∀ (U : Env T), ∀ {fuel : ℕ} {I J : Inv U.ctl.W} {P : Policies (M U.ctl.W) T}, PSim I J P U.B U.C →
        Sim I ((Expr.num t).eval K fuel P ρ) ((Expr.num t).eval K fuel U.pp ρ) := fun U {_ _ _ _} hP => by
      unfold Expr.eval; rw [hP.chk]; exact Sim.lift _
    exact ⟨0, fun _ => rfl, Or.inl ⟨z, by rw [e]; exact ⟨r, rfl⟩, fun _ _ => ⟨.of_sim hz (sim V), .of_sim hz' (sim W)⟩⟩⟩
  | un o e ih =>
    obtain ⟨ho, hS, hs⟩ := hs
    obtain ⟨N, h1, h2⟩ := ih hs hf hh
    exact ⟨N, h1, h2.step V sp nd (f := fun _ P x => o.I P x) (g := fun U x => o.I U.pp x)
      (fun x hx => by
        obtain ⟨_, _, ix⟩ := has_of_nonempty hx
        exact pick_of (S := {r | ∃ a ∈ γ x, o.Rel a r})
          (fun ⟨r, a, ha, hr⟩ => UnOp.I_out (B := False) False.elim hV o (fun h => .inl (ho h)) hS ⟨a, ha, r, hr⟩) (UnOp.I_empty V o hx)
          (UnOp.I_empty W o hx) (UnOp.I_alike V.chk W.chk o (hi ho) ix))
      (fun U x _ _ _ h => UnOp.I_sim h o x) fun _ U hE x hx => UnOp.I_void U hE o hx⟩
  | pow e k ih =>
    obtain ⟨hG, hk, ho, hs⟩ := hs
    obtain ⟨N, h1, h2⟩ := ih hs hf hh
    exact ⟨N, h1, h2.step V sp nd (f := fun _ P x => powI P x k) (g := fun U x => powI U.pp x k)
      (fun x hx => by
        obtain ⟨_, _, ix⟩ := has_of_nonempty hx
        exact pick_of (S := {r | ∃ a ∈ γ x, (a ≠ 0 ∨ 0 < k) ∧ r = a ^ k})
          (fun ⟨r, a, ha, ha', hr⟩ => powI_out (B := False) False.elim hG (fun h => .inl (ho h)) hk ⟨a, ha, ha'⟩)
          (fun h => pow_empty V hG hk hx h) (fun h => pow_empty W hG hk hx h) (pow_alike sp nd hG (hi ho) ix))
      (fun U x _ _ _ h => powI_sim h x k) fun _ U hE x hx => powI_void U hE k hx⟩
  | bin o e₁ e₂ ih₁ ih₂ =>
    obtain ⟨ho, hs₁, hs₂⟩ := hs
    have hh' : h → o ≠ .hull ∧ e₁.hullFree = true ∧ e₂.hullFree = true := fun h => by
      have := hh h
      simp only [Expr.hullFree, Bool.and_eq_true, bne_iff_ne] at this
      exact ⟨this.1.1, this.1.2, this.2⟩
    obtain ⟨N, h1, h2⟩ := ih₁ hs₁ hf.1 fun h => (hh' h).2.1
    obtain ⟨N', k1, k2⟩ := ih₂ hs₂ hf.2 fun h => (hh' h).2.2
    refine ⟨max N N', fun h => ?_, h2.step₂ V sp nd (f := fun _ P x y => o.II P x y) (g := fun U x y => o.II U.pp x y) k2
      (fun x y hx hy => ?_) (fun U x y _ _ _ h => BinOp.II_sim h o x y) fun h U hE x y hx => BinOp.II_void U hE o (hh' h).1 hx⟩
    · have := (Bool.or_eq_false_iff.1 (show (e₁.nests || e₂.nests) = false from h))
      rw [h1 this.1, k1 this.2]; rfl
    · obtain ⟨_, _, ix⟩ := has_of_nonempty hx
      obtain ⟨_, _, iy⟩ := has_of_nonempty hy
      exact pick_of (S := {r | ∃ a ∈ γ x, ∃ b ∈ γ y, o.Rel a b r})
        (fun ⟨r, a, ha, b, hb, hr⟩ => BinOp.II_out (B := False) False.elim hV o (fun h => .inl (ho h)) ⟨a, ha, b, hb, r, hr⟩)
        (BinOp.II_empty V o hx hy) (BinOp.II_empty W o hx hy) (BinOp.II_alike V.chk W.chk o (hi ho) ix iy)
  | binL o t e ih =>
    obtain ⟨ho, hs⟩ := hs
    obtain ⟨⟨r, ht⟩, hf⟩ := hf
    have hh' : h → o ≠ .hull ∧ e.hullFree = true := fun h => by
      have := hh h
      simpa only [Expr.hullFree, Bool.and_eq_true, bne_iff_ne] using this
    obtain ⟨N, h1, h2⟩ := ih hs hf fun h => (hh' h).2
    exact ⟨N, h1, h2.step V sp nd (f := fun _ P x => o.TI P t x) (g := fun U x => o.TI U.pp t x)
      (fun x hx => by
        obtain ⟨_, _, ix⟩ := has_of_nonempty hx
        exact pick_of (S := {q | ∃ b ∈ γ x, o.Rel r b q})
          (fun ⟨r, b, hb, hr⟩ => BinOp.TI_out (B := False) False.elim hV o (fun h => .inl (ho h)) ht ⟨b, hb, r, hr⟩)
          (BinOp.TI_empty V o ht hx) (BinOp.TI_empty W o ht hx) (BinOp.TI_alike V.chk W.chk o (hi ho) ht ix))
      (fun U x _ _ _ h => BinOp.TI_sim h o t x) fun h U hE x hx => BinOp.TI_void U hE o (hh' h).1 (by rw [ht]; simp) hx⟩
  | binR o e t ih =>
    obtain ⟨hf, ⟨r, ht⟩⟩ := hf
    have hh' : h → o ≠ .hull ∧ e.hullFree = true := fun h => by
      have := hh h
      simpa only [Expr.hullFree, Bool.and_eq_true, bne_iff_ne] using this
    obtain ⟨N, h1, h2⟩ := ih hs hf fun h => (hh' h).2
    exact ⟨N, h1, h2.step V sp nd (f := fun _ P x => o.IT P x t) (g := fun U x => o.IT U.pp x t)
      (fun x hx => by
        obtain ⟨_, _, ix⟩ := has_of_nonempty hx
        exact pick_of (S := {q | ∃ a ∈ γ x, o.Rel a r q})
          (fun ⟨r, a, ha, hr⟩ => BinOp.IT_out (B := False) hV o ht ⟨a, ha, r, hr⟩)
          (BinOp.IT_empty V o hx ht) (BinOp.IT_empty W o hx ht) (BinOp.IT_alike V.chk W.chk o ix ht))
      (fun U x _ _ _ h => BinOp.IT_sim h o x t) fun h U hE x hx => BinOp.IT_void U hE o (hh' h).1 (by rw [ht]; simp) hx⟩
  | inter e₁ e₂ ih₁ ih₂ =>
    have hh' : h → e₁.hullFree = true ∧ e₂.hullFree = true := fun h => by
      have := hh h
      simpa only [Expr.hullFree, Bool.and_eq_true] using this
    obtain ⟨N, h1, h2⟩ := ih₁ hs.1 hf.1 fun h => (hh' h).1
    obtain ⟨N', k1, k2⟩ := ih₂ hs.2 hf.2 fun h => (hh' h).2
    refine ⟨max N N', fun h => ?_, h2.step₂ V sp nd (f := fun _ P x y => lift (intersect P.chk x y)) (g := fun U x y => intersect U.C x y) k2
      (fun x y hx hy => ?_) (fun U x y _ _ _ h => ?_) fun h U hE x y hx => intersect_void U hE hx⟩
    · have := (Bool.or_eq_false_iff.1 (show (e₁.nests || e₂.nests) = false from h))
      rw [h1 this.1, k1 this.2]; rfl
    · obtain ⟨_, _, ix⟩ := has_of_nonempty hx
      obtain ⟨_, _, iy⟩ := has_of_nonempty hy
      exact pick_of (S := γ x ∩ γ y)
        (fun h => by
          obtain ⟨z, hz, e⟩ := C23_intersect V h
          exact Or.inl ⟨z, hz, e.ge⟩)
        (intersect_empty V hx hy) (intersect_empty W hx hy) (intersect_alike V.chk W.chk ix iy)
    · rw [h.chk]; exact Sim.lift _
  | fn f e ih =>
    obtain ⟨hf', hs⟩ := hs
    obtain ⟨N, h1, h2⟩ := ih hs hf.2 hh
    have sim := fun (U : Env T) x fuel {I J : Inv U.ctl.W} {P : Policies (M U.ctl.W) T} (h : PSim I J P U.B U.C) =>
      Fn.I_sim (K := K) (fuel := fuel) U h f x
    have hn : ∀ {n}, (Expr.fn f e).nests = false → (((f.uses == .cos) = false → n = 0) → max N n = 0) := fun h h' => by
      have := (Bool.or_eq_false_iff.1 (show (f.uses == .cos || e.nests) = false from h))
      rw [h1 this.2, h' this.1]; rfl
    rcases h2 with ⟨x, hx, H⟩ | H
    · obtain ⟨N', k1, k2⟩ := Fn.I_pick (sp := sp) (nd := nd) f hV hf' hf.1 hx
      refine ⟨max N N', fun h => hn h k1, ?_⟩
      have l : ∀ {fuel}, fuel ≥ max N N' → fuel ≥ N := fun h => (le_max_left _ _).trans h
      have r : ∀ {fuel}, fuel ≥ max N N' → fuel ≥ N' := fun h => (le_max_right _ _).trans h
      rcases k2 with ⟨z, hz, k2⟩ | k2
      · exact Or.inl ⟨z, hz, fun fuel hn => ⟨(H fuel (l hn)).1.bind (.of_sim (k2 fuel (r hn)).1 (sim _ x fuel)),
          (H fuel (l hn)).2.bind (.of_sim (k2 fuel (r hn)).2 (sim _ x fuel))⟩⟩
      · exact Or.inr fun fuel hn => ⟨(H fuel (l hn)).1.bind_gone (.of_empty (k2 fuel).1 (sim _ x fuel)),
          (H fuel (l hn)).2.bind_gone (.of_empty (k2 fuel).2 (sim _ x fuel))⟩
    · refine ⟨max N (if f.uses = .cos then 1 else 0), fun h => hn h fun h => ?_, Or.inr fun fuel hn => ?_⟩
      · rw [if_neg (by simpa using h)]
      · have hp : f.uses = .cos → 0 < fuel := fun h => by
          have := (le_max_right _ _).trans hn
          rw [if_pos h] at this; exact this
        have hN := (le_max_left _ _).trans hn
        exact ⟨(H fuel hN).1.bind fun hE _ x hx => Fn.I_void V hE f K hp hx,
          (H fuel hN).2.bind fun hE _ x hx => Fn.I_void W hE f K hp hx⟩
end

end

end BI
