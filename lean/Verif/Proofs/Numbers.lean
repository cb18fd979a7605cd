import Verif.Spec.Numbers
import Verif.Proofs.Program
/-! # Inclusion from the requirements on numbers -/

set_option linter.unusedSectionVars false

namespace BI

section
variable {D : Type} [LinearOrder D] {O : IdealOps D}

/-! ## From the listed properties -/

theorem IdealOps.monotone_of_listed (hL : O.Listed) (hS : O.Silent) (h1 : O.zero ≤ O.one) : O.Monotone := by
  have hz : ∀ x, O.mul O.zero x = O.zero := by
    intro x
    have h : O.mul O.zero x = O.neg (O.mul O.zero x) := by
      have := hS.neg_mul O.zero x
      rwa [hS.neg_zero] at this
    rcases le_total O.zero (O.mul O.zero x) with h' | h'
    · exact le_antisymm (h.trans_le (hL.neg_nonpos _ h')) h'
    · have := hL.neg_anti _ _ h'
      rw [hS.neg_zero, ← h] at this
      exact le_antisymm h' this
  have hz' : ∀ x, O.mul x O.zero = O.zero := fun x => (hS.mul_comm _ _).trans (hz x)
  have hn : ∀ x, x ≤ O.zero → O.zero ≤ O.neg x := fun x h => by simpa [hS.neg_zero] using hL.neg_anti _ _ h
  have hmn : ∀ x y, O.mul x (O.neg y) = O.neg (O.mul x y) := fun x y => by
    rw [hS.mul_comm, hS.neg_mul, hS.mul_comm]
  have hr' : ∀ x y z, x ≤ y → z ≤ O.zero → O.mul y z ≤ O.mul x z := fun x y z h h0 => by
    have := hL.neg_anti _ _ (hL.mul_mono x y (O.neg z) h (hn z h0))
    rwa [hmn, hmn, hS.neg_neg, hS.neg_neg] at this
  have hinv : ∀ y, O.zero < y → O.zero < O.div O.one y := fun y h => (hL.inv_anti y y h le_rfl).1
  have hneg : ∀ y, y < O.zero → O.zero < O.neg y := fun y h => lt_of_le_of_ne (hn y h.le) fun e => by
    have := congrArg O.neg e
    rw [hS.neg_neg, hS.neg_zero] at this
    exact h.ne this.symm
  have hinv' : ∀ y, y < O.zero → O.div O.one y ≤ O.zero := fun y h => by
    have h2 := hL.neg_nonpos _ (hinv _ (hneg y h)).le
    rwa [hS.inv_neg y h.ne, hS.neg_neg] at h2
  -- reciprocals decrease on either side of zero
  have hanti : ∀ y z, y ≠ O.zero → z ≠ O.zero → y ≤ z → (O.zero ≤ y ∨ z ≤ O.zero) → O.div O.one z ≤ O.div O.one y := by
    intro y z hy hz h hs
    rcases hs with hs | hs
    · exact (hL.inv_anti y z (lt_of_le_of_ne hs (Ne.symm hy)) h).2
    · have hz0 := lt_of_le_of_ne hs hz
      have := hL.neg_anti _ _ (hL.inv_anti (O.neg z) (O.neg y) (hneg z hz0) (hL.neg_anti _ _ h)).2
      rwa [hS.inv_neg z hz, hS.inv_neg y hy, hS.neg_neg, hS.neg_neg] at this
  refine ⟨hL.neg_anti, hS.neg_zero, ?_, hS.add_comm, ?_, hL.mul_mono, hr', hS.mul_comm, hz', ?_, h1, fun h => (hS.divisor _).1 h rfl, ?_, ?_, ?_, ?_, ?_⟩
  · intro x y z w h h'
    refine (hL.add_mono _ _ z h).trans ?_
    rw [hS.add_comm y z, hS.add_comm y w]
    exact hL.add_mono _ _ _ h'
  · intro x y z w h h'
    rw [hS.sub_eq, hS.sub_eq]
    refine (hL.add_mono _ _ _ h).trans ?_
    rw [hS.add_comm y, hS.add_comm y]
    exact hL.add_mono _ _ _ (hL.neg_anti _ _ h')
  · intro x
    rw [hS.neg_mul, hmn, hS.neg_neg]
  · intro z h
    rw [hS.div_eq _ _ ((hS.divisor z).1 h)]; exact hz _
  · intro x y z h h' h0
    have hz := (hS.divisor z).1 h
    rw [hS.div_eq x _ hz, hS.div_eq y _ hz]
    exact hL.mul_mono _ _ _ h' (hinv z (lt_of_le_of_ne h0 (Ne.symm hz))).le
  · intro x y z h h' h0
    have hz := (hS.divisor z).1 h
    rw [hS.div_eq x _ hz, hS.div_eq y _ hz]
    exact hr' _ _ _ h' (hinv' z (lt_of_le_of_ne h0 hz))
  · intro x y z h h' hyz hs h0
    have hy := (hS.divisor y).1 h
    have hz := (hS.divisor z).1 h'
    rw [hS.div_eq _ _ hy, hS.div_eq _ _ hz, hS.mul_comm x, hS.mul_comm x]
    exact hL.mul_mono _ _ _ (hanti y z hy hz hyz hs) h0
  · intro x y z h h' hyz hs h0
    have hy := (hS.divisor y).1 h
    have hz := (hS.divisor z).1 h'
    rw [hS.div_eq _ _ hy, hS.div_eq _ _ hz, hS.mul_comm x, hS.mul_comm x]
    exact hr' _ _ _ (hanti y z hy hz hyz hs) h0

end

/-! ## Operations -/

namespace Dom

end Dom
namespace IdealOps.Monotone
variable {D : Type} [LinearOrder D] {O : IdealOps D} (h : O.Monotone)
include h

theorem mul_left (x y z : D) (hxy : x ≤ y) (hz : O.zero ≤ z) : O.mul z x ≤ O.mul z y := by
  rw [h.mul_comm z x, h.mul_comm z y]; exact h.mul_right _ _ _ hxy hz
theorem mul_left' (x y z : D) (hxy : x ≤ y) (hz : z ≤ O.zero) : O.mul z y ≤ O.mul z x := by
  rw [h.mul_comm z x, h.mul_comm z y]; exact h.mul_right' _ _ _ hxy hz
theorem zero_mul (x : D) : O.mul O.zero x = O.zero := (h.mul_comm _ _).trans (h.mul_zero x)

variable {a b al au bl bu : D} (h1 : al ≤ a) (h2 : a ≤ au) (h3 : bl ≤ b) (h4 : b ≤ bu)
-- lower bounds: by the sign of `a`
theorem mL1 (h1 : al ≤ a) (h4 : b ≤ bu) (ha : a ≤ O.zero) (hb : O.zero ≤ bu) : O.mul al bu ≤ O.mul a b :=
  (h.mul_right _ _ _ h1 hb).trans (h.mul_left' _ _ _ h4 ha)
theorem mL2 (h2 : a ≤ au) (h3 : bl ≤ b) (ha : O.zero ≤ a) (hb : bl ≤ O.zero) : O.mul au bl ≤ O.mul a b :=
  (h.mul_right' _ _ _ h2 hb).trans (h.mul_left _ _ _ h3 ha)
theorem mL3 (h1 : al ≤ a) (h3 : bl ≤ b) (ha : O.zero ≤ a) (hb : O.zero ≤ bl) : O.mul al bl ≤ O.mul a b :=
  (h.mul_right _ _ _ h1 hb).trans (h.mul_left _ _ _ h3 ha)
theorem mL4 (h2 : a ≤ au) (h4 : b ≤ bu) (ha : a ≤ O.zero) (hb : bu ≤ O.zero) : O.mul au bu ≤ O.mul a b :=
  (h.mul_right' _ _ _ h2 hb).trans (h.mul_left' _ _ _ h4 ha)
theorem mU1 (h2 : a ≤ au) (h4 : b ≤ bu) (ha : O.zero ≤ a) (hb : O.zero ≤ bu) : O.mul a b ≤ O.mul au bu :=
  (h.mul_left _ _ _ h4 ha).trans (h.mul_right _ _ _ h2 hb)
theorem mU2 (h1 : al ≤ a) (h3 : bl ≤ b) (ha : a ≤ O.zero) (hb : bl ≤ O.zero) : O.mul a b ≤ O.mul al bl :=
  (h.mul_left' _ _ _ h3 ha).trans (h.mul_right' _ _ _ h1 hb)
theorem mU3 (h2 : a ≤ au) (h3 : bl ≤ b) (ha : a ≤ O.zero) (hb : O.zero ≤ bl) : O.mul a b ≤ O.mul au bl :=
  (h.mul_left' _ _ _ h3 ha).trans (h.mul_right _ _ _ h2 hb)
theorem mU4 (h1 : al ≤ a) (h4 : b ≤ bu) (ha : O.zero ≤ a) (hb : bu ≤ O.zero) : O.mul a b ≤ O.mul al bu :=
  (h.mul_left _ _ _ h4 ha).trans (h.mul_right' _ _ _ h1 hb)
-- by the sign of `b`
theorem nL1 (h3 : bl ≤ b) (h2 : a ≤ au) (hb : b ≤ O.zero) (ha : O.zero ≤ au) : O.mul au bl ≤ O.mul a b := by
  rw [h.mul_comm au, h.mul_comm a]; exact h.mL1 h3 h2 hb ha
theorem nL2 (h4 : b ≤ bu) (h1 : al ≤ a) (hb : O.zero ≤ b) (ha : al ≤ O.zero) : O.mul al bu ≤ O.mul a b := by
  rw [h.mul_comm al, h.mul_comm a]; exact h.mL2 h4 h1 hb ha
theorem nU1 (h4 : b ≤ bu) (h2 : a ≤ au) (hb : O.zero ≤ b) (ha : O.zero ≤ au) : O.mul a b ≤ O.mul au bu := by
  rw [h.mul_comm au, h.mul_comm a]; exact h.mU1 h4 h2 hb ha
theorem nU2 (h3 : bl ≤ b) (h1 : al ≤ a) (hb : b ≤ O.zero) (ha : al ≤ O.zero) : O.mul a b ≤ O.mul al bl := by
  rw [h.mul_comm al, h.mul_comm a]; exact h.mU2 h3 h1 hb ha
end IdealOps.Monotone
namespace Dom

theorem okb {α β : Type} {r : Res α} {f : α → Res β} {z : β} (h : (r >>= f) = .ok z) : ∃ a, r = .ok a ∧ f a = .ok z := by
  rcases r with e | a
  · cases h
  · exact ⟨a, rfl, h⟩

variable {T : Type} [Num T] {D : Type} [LinearOrder D] {O : IdealOps D} {val : T → D}

/-- What the rounding object computes lies on the demanded side. -/
structure Sides (B : Arith Res T) (O : IdealOps D) (val : T → D) : Prop where
  addDown : ∀ {a b c}, B.addDown a b = .ok c → val c ≤ O.add (val a) (val b)
  addUp : ∀ {a b c}, B.addUp a b = .ok c → O.add (val a) (val b) ≤ val c
  subDown : ∀ {a b c}, B.subDown a b = .ok c → val c ≤ O.sub (val a) (val b)
  subUp : ∀ {a b c}, B.subUp a b = .ok c → O.sub (val a) (val b) ≤ val c
  mulDown : ∀ {a b c}, B.mulDown a b = .ok c → val c ≤ O.mul (val a) (val b)
  mulUp : ∀ {a b c}, B.mulUp a b = .ok c → O.mul (val a) (val b) ≤ val c
  divDown : ∀ {a b c}, B.divDown a b = .ok c → O.divisor (val b) ∧ val c ≤ O.div (val a) (val b)
  divUp : ∀ {a b c}, B.divUp a b = .ok c → O.divisor (val b) ∧ O.div (val a) (val b) ≤ val c

theorem _root_.BI.RoundsAround.sides {V : Env T} (h : RoundsAround V O val) (hk : KindOk T V.lib V.kind) {s : V.State} (hs : V.Valid s) :
    Sides V.B O val := by
  obtain ⟨J, hJ⟩ := V.back hk
  constructor
  · intro a b c e; exact h.addDown a b s hs c ((hJ.scope (hJ.rnd.s_addDown a b) s hs).1.trans e)
  · intro a b c e; exact h.addUp a b s hs c ((hJ.scope (hJ.rnd.s_addUp a b) s hs).1.trans e)
  · intro a b c e; exact h.subDown a b s hs c ((hJ.scope (hJ.rnd.s_subDown a b) s hs).1.trans e)
  · intro a b c e; exact h.subUp a b s hs c ((hJ.scope (hJ.rnd.s_subUp a b) s hs).1.trans e)
  · intro a b c e; exact h.mulDown a b s hs c ((hJ.scope (hJ.rnd.s_mulDown a b) s hs).1.trans e)
  · intro a b c e; exact h.mulUp a b s hs c ((hJ.scope (hJ.rnd.s_mulUp a b) s hs).1.trans e)
  · intro a b c e; exact h.divDown a b s hs c ((hJ.scope (hJ.rnd.s_divDown a b) s hs).1.trans e)
  · intro a b c e; exact h.divUp a b s hs c ((hJ.scope (hJ.rnd.s_divUp a b) s hs).1.trans e)

theorem _root_.BI.KeepsSign.pure {V : Env T} (h : KeepsSign V O val) (hk : KindOk T V.lib V.kind) {s : V.State} (hs : V.Valid s) {a b c : T}
    (ha : O.zero ≤ val a) (hb : O.zero ≤ val b) (e : V.B.mulDown a b = .ok c) : O.zero ≤ val c := by
  obtain ⟨J, hJ⟩ := V.back hk
  exact h a b ha hb s hs c ((hJ.scope (hJ.rnd.s_mulDown a b) s hs).1.trans e)

section
variable (hR : Represents O val)
include hR

theorem rep_isNeg (a : T) : isNeg a = decide (val a < O.zero) := by
  rw [Bool.eq_iff_iff, decide_eq_true_iff, ← hR.zero]; exact hR.lt_iff _ _
theorem rep_isPos (a : T) : isPos a = decide (O.zero < val a) := by
  rw [Bool.eq_iff_iff, decide_eq_true_iff, ← hR.zero]; exact hR.lt_iff _ _
theorem rep_isZero (a : T) : isZero a = decide (val a = O.zero) := by
  rw [Bool.eq_iff_iff, decide_eq_true_iff, ← hR.zero]; exact hR.eq_iff _ _
theorem rep_max (a b : T) : val (stdMax a b) = max (val a) (val b) := by
  unfold stdMax
  by_cases h : Num.lt a b = true
  · rw [if_pos h, max_eq_right ((hR.lt_iff _ _).1 h).le]
  · rw [if_neg h, max_eq_left (not_lt.1 fun h' => h ((hR.lt_iff _ _).2 h'))]
theorem rep_min (a b : T) : val (stdMin a b) = min (val a) (val b) := by
  unfold stdMin
  by_cases h : Num.lt b a = true
  · rw [if_pos h, min_eq_right ((hR.lt_iff _ _).1 h).le]
  · rw [if_neg h, min_eq_left (not_lt.1 fun h' => h ((hR.lt_iff _ _).2 h'))]

theorem rep_isEmpty (sp : ChkSpec) (nd : Bool) {l u : T} (h : val l ≤ val u) : (sp.eval T nd).isEmpty l u = .ok false := by
  induction sp with
  | base => change Except.ok (!Num.le l u) = _; rw [(hR.le_iff _ _).2 h]; rfl
  | noEmpty c ih => rfl
  | noNan c ih => exact ih
  | catchNan c ih => exact ih
theorem rep_isNan (sp : ChkSpec) (nd : Bool) (a : T) : (sp.eval T nd).isNan a = .ok false := by
  induction sp with
  | base => change Except.ok (Num.hasNaN T && _) = _; rw [hR.noNan]; rfl
  | noEmpty c ih => exact ih
  | noNan c ih => rfl
  | catchNan c ih =>
    change (do
      if ← (c.eval T nd).isNan a then .error .invalidNumber
      pure false : Res Bool) = _
    rw [ih]; rfl
theorem rep_posInf (sp : ChkSpec) {nd : Bool} (hi : Num.hasInf T = true ∨ nd = false) {c : T}
    (h : (sp.eval T nd).posInf = .ok c) (d : D) : d ≤ val c := by
  induction sp with
  | base =>
    obtain ⟨u, h1, h2⟩ := okb (r := assertRes nd (Num.hasInf T)) (f := fun _ => pure Num.infinity) h
    cases h2
    unfold assertRes at h1
    split at h1
    · next h3 =>
      rcases hi with hi | hi
      · exact (hR.inf hi d).1
      · rw [hi, Bool.or_false] at h3; exact (hR.inf h3 d).1
    · cases h1
  | noEmpty c ih => exact ih h
  | noNan c ih => exact ih h
  | catchNan c ih => exact ih h
theorem rep_negInf (sp : ChkSpec) {nd : Bool} (hi : Num.hasInf T = true ∨ nd = false) {c : T}
    (h : (sp.eval T nd).negInf = .ok c) (d : D) : val c ≤ d := by
  induction sp with
  | base =>
    obtain ⟨u, h1, h2⟩ := okb (r := assertRes nd (Num.hasInf T)) (f := fun _ => ofOpt (Num.neg Num.infinity)) h
    have h4 : Num.neg (Num.infinity : T) = some c := by
      revert h2
      cases Num.neg (Num.infinity : T) with
      | none => exact fun h => by cases h
      | some c' => intro h; cases h; rfl
    rw [hR.neg _ _ h4]
    unfold assertRes at h1
    split at h1
    · next h3 =>
      rcases hi with hi | hi
      · exact (hR.inf hi d).2
      · rw [hi, Bool.or_false] at h3; exact (hR.inf h3 d).2
    · cases h1
  | noEmpty c ih => exact ih h
  | noNan c ih => exact ih h
  | catchNan c ih => exact ih h
end

theorem mk2_ok {a b : Res T} {z : Itv T} (h : mk2 a b = .ok z) : a = .ok z.lower ∧ b = .ok z.upper := by
  unfold mk2 at h
  obtain ⟨p, h1, h2⟩ := okb h
  cases h2
  rcases a with e | a
  · cases h1
  · rcases b with e | b
    · cases h1
    · cases h1; exact ⟨rfl, rfl⟩

theorem _root_.BI.Itv.Holds.le {x : Itv T} {d : D} (h : x.Holds val d) : val x.lower ≤ val x.upper := h.1.trans h.2

theorem _root_.BI.Itv.Holds.point (t : T) : (⟨t, t⟩ : Itv T).Holds val (val t) := ⟨le_rfl, le_rfl⟩

theorem ofOpt_ok {α : Type} {o : Option α} {c : α} (h : ofOpt o = (.ok c : Res α)) : o = some c := by
  cases o with
  | none => cases h
  | some a => cases h; rfl

section
variable {B : Arith Res T} {sp : ChkSpec} {nd : Bool} (hR : Represents O val) (hM : O.Monotone) (hB : Sides B O val)
  {x y z : Itv T} {a b d : D} {t : T}

local notation "C" => sp.eval T nd
local notation "pol" => purePolicies B (sp.eval T nd)

section
include hR

theorem rep_testI (h : x.Holds val a) : testI C x = .ok false := rep_isEmpty hR sp nd h.le
theorem rep_testII (h : x.Holds val a) (h' : y.Holds val b) : testII C C x y = .ok false := by
  unfold testII; rw [rep_isEmpty hR sp nd h.le]; exact rep_isEmpty hR sp nd h'.le
theorem rep_testTI (h : y.Holds val b) : testTI C t y = .ok false := by
  unfold testTI; rw [rep_isNan hR sp nd]; exact rep_isEmpty hR sp nd h.le
theorem rep_testIT (h : x.Holds val a) : testIT C x t = .ok false := by
  unfold testIT; rw [rep_isEmpty hR sp nd h.le]; exact rep_isNan hR sp nd t

theorem rep_ctor (h : ctorT C t = .ok z) : z.Holds val (val t) := by
  unfold ctorT at h
  rw [rep_isNan hR sp nd] at h
  cases h; exact Itv.Holds.point t
end

/-! ### Sums -/

section
include hR hM hB

theorem rep_add (ha : x.Holds val a) (hb : y.Holds val b) (h : addII pol x y = .ok z) : z.Holds val (O.add a b) := by
  unfold addII at h
  change (testII C C x y >>= _) = _ at h
  rw [rep_testII hR ha hb] at h
  obtain ⟨h1, h2⟩ := mk2_ok h
  exact ⟨(hB.addDown h1).trans (hM.add_mono _ _ _ _ ha.1 hb.1), (hM.add_mono _ _ _ _ ha.2 hb.2).trans (hB.addUp h2)⟩

theorem rep_addT (hb : y.Holds val b) (h : addTI pol t y = .ok z) : z.Holds val (O.add (val t) b) := by
  unfold addTI at h
  change (testTI C t y >>= _) = _ at h
  rw [rep_testTI hR hb] at h
  obtain ⟨h1, h2⟩ := mk2_ok h
  exact ⟨(hB.addDown h1).trans (hM.add_mono _ _ _ _ le_rfl hb.1), (hM.add_mono _ _ _ _ le_rfl hb.2).trans (hB.addUp h2)⟩

theorem rep_sub (ha : x.Holds val a) (hb : y.Holds val b) (h : subII pol x y = .ok z) : z.Holds val (O.sub a b) := by
  unfold subII at h
  change (testII C C x y >>= _) = _ at h
  rw [rep_testII hR ha hb] at h
  obtain ⟨h1, h2⟩ := mk2_ok h
  exact ⟨(hB.subDown h1).trans (hM.sub_mono _ _ _ _ ha.1 hb.2), (hM.sub_mono _ _ _ _ ha.2 hb.1).trans (hB.subUp h2)⟩

theorem rep_subTI (hb : y.Holds val b) (h : subTI pol t y = .ok z) : z.Holds val (O.sub (val t) b) := by
  unfold subTI at h
  change (testTI C t y >>= _) = _ at h
  rw [rep_testTI hR hb] at h
  obtain ⟨h1, h2⟩ := mk2_ok h
  exact ⟨(hB.subDown h1).trans (hM.sub_mono _ _ _ _ le_rfl hb.2), (hM.sub_mono _ _ _ _ le_rfl hb.1).trans (hB.subUp h2)⟩

theorem rep_subIT (ha : x.Holds val a) (h : subIT pol x t = .ok z) : z.Holds val (O.sub a (val t)) := by
  unfold subIT at h
  change (testIT C x t >>= _) = _ at h
  rw [rep_testIT hR ha] at h
  obtain ⟨h1, h2⟩ := mk2_ok h
  exact ⟨(hB.subDown h1).trans (hM.sub_mono _ _ _ _ ha.1 le_rfl), (hM.sub_mono _ _ _ _ ha.2 le_rfl).trans (hB.subUp h2)⟩

/-! ### Products -/

theorem rep_mulBody (ha : x.Holds val a) (hb : y.Holds val b) (h : mulBody B x.lower x.upper y.lower y.upper = .ok z) :
    z.Holds val (O.mul a b) := by
  obtain ⟨al, au⟩ := ha
  obtain ⟨bl, bu⟩ := hb
  unfold mulBody at h
  simp only [rep_isNeg hR, rep_isPos hR, decide_eq_true_eq] at h
  have hz : ∀ {d : D}, d = O.zero → (zeroI : Itv T).Holds val d := fun {d} e => by
    subst e; exact ⟨hR.zero.le, hR.zero.ge⟩
  have mul_comm := hM.mul_comm
  split_ifs at h with h1 h2 h3 h4 h4 h3 h4 h4 h2 h3 h4 h4
  -- M * M
  · obtain ⟨p, hp, hz⟩ := okb h
    cases hz
    obtain ⟨p1, e1, hp⟩ := okb (f := fun x => _) hp
    obtain ⟨p2, e2, hp⟩ := okb (f := fun x => _) hp
    obtain ⟨p3, e3, hp⟩ := okb (f := fun x => _) hp
    obtain ⟨p4, e4, hp⟩ := okb (f := fun x => _) hp
    cases hp
    refine ⟨?_, ?_⟩
    · rw [rep_min hR]
      rcases le_total a O.zero with h | h
      · exact (min_le_left _ _).trans ((hB.mulDown e1).trans (hM.mL1 al bu h h4.le))
      · exact (min_le_right _ _).trans ((hB.mulDown e2).trans (hM.mL2 au bl h h3.le))
    · rw [rep_max hR]
      rcases le_total a O.zero with h | h
      · exact ((hM.mU2 al bl h h3.le).trans (hB.mulUp e3)).trans (le_max_left _ _)
      · exact ((hM.mU1 au bu h h4.le).trans (hB.mulUp e4)).trans (le_max_right _ _)
  -- M * N
  · obtain ⟨e1, e2⟩ := mk2_ok h
    have hb := bu.trans (not_lt.1 h4)
    exact ⟨(hB.mulDown e1).trans (hM.nL1 bl au hb h2.le), (hM.nU2 bl al hb h1.le).trans (hB.mulUp e2)⟩
  -- M * P
  · obtain ⟨e1, e2⟩ := mk2_ok h
    have hb := (not_lt.1 h3).trans bl
    exact ⟨(hB.mulDown e1).trans (hM.nL2 bu al hb h1.le), (hM.nU1 bu au hb h2.le).trans (hB.mulUp e2)⟩
  -- M * Z
  · cases h
    have hb : b = O.zero := le_antisymm (bu.trans (not_lt.1 h4)) ((not_lt.1 h3).trans bl)
    exact hz (by rw [hb]; exact hM.mul_zero a)
  -- N * M
  · obtain ⟨e1, e2⟩ := mk2_ok h
    have ha := au.trans (not_lt.1 h2)
    exact ⟨(hB.mulDown e1).trans (hM.mL1 al bu ha h4.le), (hM.mU2 al bl ha h3.le).trans (hB.mulUp e2)⟩
  -- N * N
  · obtain ⟨e1, e2⟩ := mk2_ok h
    have ha := au.trans (not_lt.1 h2)
    exact ⟨(hB.mulDown e1).trans (hM.mL4 au bu ha (not_lt.1 h4)), (hM.mU2 al bl ha h3.le).trans (hB.mulUp e2)⟩
  -- N * P
  · obtain ⟨e1, e2⟩ := mk2_ok h
    have ha := au.trans (not_lt.1 h2)
    exact ⟨(hB.mulDown e1).trans (hM.mL1 al bu ha h4.le), (hM.mU3 au bl ha (not_lt.1 h3)).trans (hB.mulUp e2)⟩
  -- N * Z
  · cases h
    have hb : b = O.zero := le_antisymm (bu.trans (not_lt.1 h4)) ((not_lt.1 h3).trans bl)
    exact hz (by rw [hb]; exact hM.mul_zero a)
  -- P * M
  · obtain ⟨e1, e2⟩ := mk2_ok h
    have ha := (not_lt.1 h1).trans al
    exact ⟨(hB.mulDown e1).trans (hM.mL2 au bl ha h3.le), (hM.mU1 au bu ha h4.le).trans (hB.mulUp e2)⟩
  -- P * N
  · obtain ⟨e1, e2⟩ := mk2_ok h
    have ha := (not_lt.1 h1).trans al
    exact ⟨(hB.mulDown e1).trans (hM.mL2 au bl ha h3.le), (hM.mU4 al bu ha (not_lt.1 h4)).trans (hB.mulUp e2)⟩
  -- P * P
  · obtain ⟨e1, e2⟩ := mk2_ok h
    have ha := (not_lt.1 h1).trans al
    exact ⟨(hB.mulDown e1).trans (hM.mL3 al bl ha (not_lt.1 h3)), (hM.mU1 au bu ha h4.le).trans (hB.mulUp e2)⟩
  -- P * Z
  · cases h
    have hb : b = O.zero := le_antisymm (bu.trans (not_lt.1 h4)) ((not_lt.1 h3).trans bl)
    exact hz (by rw [hb]; exact hM.mul_zero a)
  -- Z * ?
  · cases h
    have ha : a = O.zero := le_antisymm (au.trans (not_lt.1 h2)) ((not_lt.1 h1).trans al)
    exact hz (by rw [ha]; exact hM.zero_mul b)

theorem rep_mul (ha : x.Holds val a) (hb : y.Holds val b) (h : mulII pol x y = .ok z) : z.Holds val (O.mul a b) := by
  unfold mulII at h
  change (testII C C x y >>= _) = _ at h
  rw [rep_testII hR ha hb] at h
  exact rep_mulBody hR hM hB ha hb h

theorem rep_mulT (hb : y.Holds val b) (h : mulTI pol t y = .ok z) : z.Holds val (O.mul (val t) b) := by
  unfold mulTI at h
  change (testTI C t y >>= _) = _ at h
  rw [rep_testTI hR hb] at h
  change (if isNeg t = true then _ else _ : Res (Itv T)) = _ at h
  simp only [rep_isNeg hR, rep_isZero hR, decide_eq_true_eq] at h
  split_ifs at h with h1 h2
  · obtain ⟨e1, e2⟩ := mk2_ok h
    exact ⟨(hB.mulDown e1).trans (hM.mul_left' _ _ _ hb.2 h1.le), (hM.mul_left' _ _ _ hb.1 h1.le).trans (hB.mulUp e2)⟩
  · cases h
    rw [h2, hM.zero_mul]
    exact ⟨hR.zero.le, hR.zero.ge⟩
  · obtain ⟨e1, e2⟩ := mk2_ok h
    have h0 := not_lt.1 h1
    exact ⟨(hB.mulDown e1).trans (hM.mul_left _ _ _ hb.1 h0), (hM.mul_left _ _ _ hb.2 h0).trans (hB.mulUp e2)⟩

/-! ### Quotients -/

section
variable (hi : Num.hasInf T = true ∨ nd = false)

theorem rep_divNonZero (ha : x.Holds val a) (hb : y.Holds val b) (hd : O.divisor b) (hn : O.zero < val y.lower ∨ val y.upper < O.zero)
    (h : divNonZeroII pol x y = .ok z) : z.Holds val (O.div a b) := by
  obtain ⟨al, au⟩ := ha
  obtain ⟨bl, bu⟩ := hb
  unfold divNonZeroII at h
  change (if isNeg x.upper = true then _ else _ : Res (Itv T)) = _ at h
  simp only [rep_isNeg hR, decide_eq_true_eq] at h
  have hp : ¬ val y.upper < O.zero → O.zero < val y.lower := fun h => hn.resolve_right h
  split_ifs at h with h1 h2 h2 h3 h3 h3
  -- x < 0, y < 0
  · obtain ⟨e1, e2⟩ := mk2_ok h
    obtain ⟨d1, e1⟩ := hB.divDown e1
    obtain ⟨d2, e2⟩ := hB.divUp e2
    have hb := bu.trans h2.le
    have ha := au.trans h1.le
    exact ⟨e1.trans ((hM.div_anti' _ _ _ d1 hd bl (.inr hb) h1.le).trans (hM.div_mono' _ _ _ hd au hb)),
      ((hM.div_anti' _ _ _ hd d2 bu (.inr h2.le) ha).trans (hM.div_mono' _ _ _ d2 al h2.le)).trans e2⟩
  -- x < 0, y > 0
  · obtain ⟨e1, e2⟩ := mk2_ok h
    obtain ⟨d1, e1⟩ := hB.divDown e1
    obtain ⟨d2, e2⟩ := hB.divUp e2
    have hl := (hp h2).le
    have hb := hl.trans bl
    have ha := au.trans h1.le
    exact ⟨e1.trans ((hM.div_mono _ _ _ d1 al hl).trans (hM.div_anti' _ _ _ d1 hd bl (.inl hl) ha)),
      ((hM.div_mono _ _ _ hd au hb).trans (hM.div_anti' _ _ _ hd d2 bu (.inl hb) h1.le)).trans e2⟩
  -- x mixed, y < 0
  · obtain ⟨e1, e2⟩ := mk2_ok h
    obtain ⟨d1, e1⟩ := hB.divDown e1
    obtain ⟨d2, e2⟩ := hB.divUp e2
    have hb := bu.trans h3.le
    exact ⟨e1.trans ((hM.div_anti _ _ _ hd d1 bu (.inr h3.le) (not_lt.1 h1)).trans (hM.div_mono' _ _ _ hd au hb)),
      (hM.div_mono' _ _ _ hd al hb).trans ((hM.div_anti' _ _ _ hd d2 bu (.inr h3.le) h2.le).trans e2)⟩
  -- x mixed, y > 0
  · obtain ⟨e1, e2⟩ := mk2_ok h
    obtain ⟨d1, e1⟩ := hB.divDown e1
    obtain ⟨d2, e2⟩ := hB.divUp e2
    have hl := (hp h3).le
    have hb := hl.trans bl
    exact ⟨e1.trans ((hM.div_anti' _ _ _ d1 hd bl (.inl hl) h2.le).trans (hM.div_mono _ _ _ hd al hb)),
      (hM.div_mono _ _ _ hd au hb).trans ((hM.div_anti _ _ _ d2 hd bl (.inl hl) (not_lt.1 h1)).trans e2)⟩
  -- x ≥ 0, y < 0
  · obtain ⟨e1, e2⟩ := mk2_ok h
    obtain ⟨d1, e1⟩ := hB.divDown e1
    obtain ⟨d2, e2⟩ := hB.divUp e2
    have hb := bu.trans h3.le
    have ha := (not_lt.1 h2).trans al
    exact ⟨e1.trans ((hM.div_mono' _ _ _ d1 au h3.le).trans (hM.div_anti _ _ _ hd d1 bu (.inr h3.le) ha)),
      (hM.div_mono' _ _ _ hd al hb).trans ((hM.div_anti _ _ _ d2 hd bl (.inr hb) (not_lt.1 h2)).trans e2)⟩
  -- x ≥ 0, y > 0
  · obtain ⟨e1, e2⟩ := mk2_ok h
    obtain ⟨d1, e1⟩ := hB.divDown e1
    obtain ⟨d2, e2⟩ := hB.divUp e2
    have hl := (hp h3).le
    have hb := hl.trans bl
    have ha := (not_lt.1 h2).trans al
    exact ⟨e1.trans ((hM.div_anti _ _ _ hd d1 bu (.inl hb) (not_lt.1 h2)).trans (hM.div_mono _ _ _ hd al hb)),
      ((hM.div_anti _ _ _ d2 hd bl (.inl hl) ha).trans (hM.div_mono _ _ _ d2 au hl)).trans e2⟩

theorem rep_mkNegInf (hi : Num.hasInf T = true ∨ nd = false) {u : Res T} (h : mkNegInf C u = .ok z)
    (hu : ∀ c, u = .ok c → d ≤ val c) : z.Holds val d := by
  obtain ⟨l, hl, h⟩ := okb (r := (sp.eval T nd).negInf) (f := fun _ => _) h
  obtain ⟨c, hc, h⟩ := okb h
  cases h
  exact ⟨rep_negInf hR sp hi hl d, hu c hc⟩

theorem rep_mkPosInf (hi : Num.hasInf T = true ∨ nd = false) {u : Res T} (h : mkPosInf C u = .ok z)
    (hu : ∀ c, u = .ok c → val c ≤ d) : z.Holds val d := by
  obtain ⟨c, hc, h⟩ := okb h
  obtain ⟨l, hl, h⟩ := okb (r := (sp.eval T nd).posInf) (f := fun _ => _) h
  cases h
  exact ⟨hu c hc, rep_posInf hR sp hi hl d⟩

theorem rep_whole (hi : Num.hasInf T = true ∨ nd = false) (h : wholeI C = .ok z) (d : D) : z.Holds val d := by
  unfold wholeI at h
  obtain ⟨l, hl, h⟩ := okb h
  obtain ⟨u, hu, h⟩ := okb h
  cases h
  exact ⟨rep_negInf hR sp hi hl d, rep_posInf hR sp hi hu d⟩

theorem rep_zeroIn (hb : y.Holds val b) : zeroIn C y = .ok (decide (val y.lower ≤ O.zero) && decide (O.zero ≤ val y.upper)) := by
  unfold zeroIn
  rw [rep_testI hR hb]
  change Except.ok _ = _
  simp only [rep_isPos hR, rep_isNeg hR, ← decide_not, not_lt]

/-- A divisor in an interval around zero. -/
theorem rep_div (hi : Num.hasInf T = true ∨ nd = false) (ha : x.Holds val a) (hb : y.Holds val b) (hd : O.divisor b)
    (h : divII pol x y = .ok z) : z.Holds val (O.div a b) := by
  unfold divII at h
  change (testII C C x y >>= _) = _ at h
  rw [rep_testII hR ha hb] at h
  change (zeroIn C y >>= _) = _ at h
  rw [rep_zeroIn hR hM hB hb] at h
  change (if (_ && _) = true then _ else _ : Res (Itv T)) = _ at h
  have h0 : isZero x.lower && isZero x.upper → x.Holds val (O.div a b) := fun hx => by
    simp only [rep_isZero hR, Bool.and_eq_true, decide_eq_true_eq] at hx
    have : a = O.zero := le_antisymm (ha.2.trans hx.2.le) (hx.1.ge.trans ha.1)
    rw [this, hM.zero_div _ hd]
    exact ⟨hx.1.le, hx.2.ge⟩
  split_ifs at h with h1 h2 h3 h3
  · unfold divZeroI at h
    split_ifs at h with h4
    · cases h; exact h0 h4
    · exact rep_whole hR hM hB hi h _
  · unfold divNegativeI at h
    simp only [rep_isZero hR, Bool.not_eq_true', decide_eq_false_iff_not, Bool.and_eq_true, decide_eq_true_eq, not_not] at h1 h2 h3
    have hb0 := hb.2.trans h3.le
    by_cases h4 : (isZero x.lower && isZero x.upper) = true
    · rw [if_pos h4] at h; cases h; exact h0 h4
    rw [if_neg h4] at h
    change (if isNeg x.upper = true then _ else _ : Res (Itv T)) = _ at h
    simp only [rep_isNeg hR, decide_eq_true_eq] at h
    split_ifs at h with h5 h6
    · refine rep_mkPosInf hR hM hB hi h fun c hc => ?_
      obtain ⟨d1, e1⟩ := hB.divDown hc
      exact e1.trans ((hM.div_anti' _ _ _ d1 hd hb.1 (.inr hb0) h5.le).trans (hM.div_mono' _ _ _ hd ha.2 hb0))
    · exact rep_whole hR hM hB hi h _
    · refine rep_mkNegInf hR hM hB hi h fun c hc => ?_
      obtain ⟨d1, e1⟩ := hB.divUp hc
      exact (hM.div_mono' _ _ _ hd ha.1 hb0).trans ((hM.div_anti _ _ _ d1 hd hb.1 (.inr hb0) (not_lt.1 h6)).trans e1)
  · unfold divPositiveI at h
    simp only [rep_isZero hR, Bool.not_eq_true', decide_eq_false_iff_not, Bool.and_eq_true, decide_eq_true_eq, not_not] at h1 h2 h3
    have hb0 := h2.ge.trans hb.1
    by_cases h4 : (isZero x.lower && isZero x.upper) = true
    · rw [if_pos h4] at h; cases h; exact h0 h4
    rw [if_neg h4] at h
    change (if isNeg x.upper = true then _ else _ : Res (Itv T)) = _ at h
    simp only [rep_isNeg hR, decide_eq_true_eq] at h
    split_ifs at h with h5 h6
    · refine rep_mkNegInf hR hM hB hi h fun c hc => ?_
      obtain ⟨d1, e1⟩ := hB.divUp hc
      exact (hM.div_mono _ _ _ hd ha.2 hb0).trans ((hM.div_anti' _ _ _ hd d1 hb.2 (.inl hb0) h5.le).trans e1)
    · exact rep_whole hR hM hB hi h _
    · refine rep_mkPosInf hR hM hB hi h fun c hc => ?_
      obtain ⟨d1, e1⟩ := hB.divDown hc
      exact e1.trans ((hM.div_anti _ _ _ hd d1 hb.2 (.inl hb0) (not_lt.1 h6)).trans (hM.div_mono _ _ _ hd ha.1 hb0))
  · simp only [rep_isZero hR, Bool.not_eq_true', decide_eq_false_iff_not, Bool.and_eq_true, decide_eq_true_eq, not_not] at h1 h2 h3
    have : b = O.zero := le_antisymm (hb.2.trans h3.le) (h2.ge.trans hb.1)
    exact absurd (this ▸ hd) hM.not_zero
  · refine rep_divNonZero hR hM hB ha hb hd ?_ h
    simp only [Bool.and_eq_true, decide_eq_true_eq, not_and_or, not_le] at h1
    exact h1

theorem rep_divTI (hi : Num.hasInf T = true ∨ nd = false) (hb : y.Holds val b) (hd : O.divisor b)
    (h : divTI pol t y = .ok z) : z.Holds val (O.div (val t) b) := by
  unfold divTI at h
  change (testTI C t y >>= _) = _ at h
  rw [rep_testTI hR hb] at h
  change (zeroIn C y >>= _) = _ at h
  rw [rep_zeroIn hR hM hB hb] at h
  change (if (_ && _) = true then _ else _ : Res (Itv T)) = _ at h
  have h0 : isZero t → (zeroI : Itv T).Holds val (O.div (val t) b) := fun hx => by
    simp only [rep_isZero hR, decide_eq_true_eq] at hx
    rw [hx, hM.zero_div _ hd]
    exact ⟨hR.zero.le, hR.zero.ge⟩
  split_ifs at h with h1 h2 h3 h3
  · unfold divZeroT at h
    split_ifs at h with h4
    · cases h; exact h0 h4
    · exact rep_whole hR hM hB hi h _
  · unfold divNegativeT at h
    simp only [rep_isZero hR, Bool.not_eq_true', decide_eq_false_iff_not, Bool.and_eq_true, decide_eq_true_eq, not_not] at h1 h2 h3
    have hb0 := hb.2.trans h3.le
    by_cases h4 : isZero t = true
    · rw [if_pos h4] at h; cases h; exact h0 h4
    rw [if_neg h4] at h
    change (if isNeg t = true then _ else _ : Res (Itv T)) = _ at h
    simp only [rep_isNeg hR, decide_eq_true_eq] at h
    split_ifs at h with h5
    · refine rep_mkPosInf hR hM hB hi h fun c hc => ?_
      obtain ⟨d1, e1⟩ := hB.divDown hc
      exact e1.trans (hM.div_anti' _ _ _ d1 hd hb.1 (.inr hb0) h5.le)
    · refine rep_mkNegInf hR hM hB hi h fun c hc => ?_
      obtain ⟨d1, e1⟩ := hB.divUp hc
      exact (hM.div_anti _ _ _ d1 hd hb.1 (.inr hb0) (not_lt.1 h5)).trans e1
  · unfold divPositiveT at h
    simp only [rep_isZero hR, Bool.not_eq_true', decide_eq_false_iff_not, Bool.and_eq_true, decide_eq_true_eq, not_not] at h1 h2 h3
    have hb0 := h2.ge.trans hb.1
    by_cases h4 : isZero t = true
    · rw [if_pos h4] at h; cases h; exact h0 h4
    rw [if_neg h4] at h
    change (if isNeg t = true then _ else _ : Res (Itv T)) = _ at h
    simp only [rep_isNeg hR, decide_eq_true_eq] at h
    split_ifs at h with h5
    · refine rep_mkNegInf hR hM hB hi h fun c hc => ?_
      obtain ⟨d1, e1⟩ := hB.divUp hc
      exact (hM.div_anti' _ _ _ hd d1 hb.2 (.inl hb0) h5.le).trans e1
    · refine rep_mkPosInf hR hM hB hi h fun c hc => ?_
      obtain ⟨d1, e1⟩ := hB.divDown hc
      exact e1.trans (hM.div_anti _ _ _ hd d1 hb.2 (.inl hb0) (not_lt.1 h5))
  · simp only [rep_isZero hR, Bool.not_eq_true', decide_eq_false_iff_not, Bool.and_eq_true, decide_eq_true_eq, not_not] at h1 h2 h3
    have : b = O.zero := le_antisymm (hb.2.trans h3.le) (h2.ge.trans hb.1)
    exact absurd (this ▸ hd) hM.not_zero
  · simp only [Bool.and_eq_true, decide_eq_true_eq, not_and_or, not_le] at h1
    have hs : O.zero ≤ val y.lower ∨ val y.upper ≤ O.zero := h1.imp le_of_lt le_of_lt
    have hs1 : O.zero ≤ val y.lower ∨ b ≤ O.zero := hs.imp_right hb.2.trans
    have hs2 : O.zero ≤ b ∨ val y.upper ≤ O.zero := hs.imp_left fun h => h.trans hb.1
    unfold divNonZeroTI at h
    change (if isNeg t = true then _ else _ : Res (Itv T)) = _ at h
    simp only [rep_isNeg hR, decide_eq_true_eq] at h
    split_ifs at h with h5
    · obtain ⟨e1, e2⟩ := mk2_ok h
      obtain ⟨d1, e1⟩ := hB.divDown e1
      obtain ⟨d2, e2⟩ := hB.divUp e2
      exact ⟨e1.trans (hM.div_anti' _ _ _ d1 hd hb.1 hs1 h5.le), (hM.div_anti' _ _ _ hd d2 hb.2 hs2 h5.le).trans e2⟩
    · obtain ⟨e1, e2⟩ := mk2_ok h
      obtain ⟨d1, e1⟩ := hB.divDown e1
      obtain ⟨d2, e2⟩ := hB.divUp e2
      exact ⟨e1.trans (hM.div_anti _ _ _ hd d1 hb.2 hs2 (not_lt.1 h5)), (hM.div_anti _ _ _ d2 hd hb.1 hs1 (not_lt.1 h5)).trans e2⟩

theorem rep_divIT (ha : x.Holds val a) (hd : O.divisor (val t)) (h : divIT pol x t = .ok z) : z.Holds val (O.div a (val t)) := by
  unfold divIT at h
  change (testIT C x t >>= _) = _ at h
  rw [rep_testIT hR ha] at h
  change (if (false || isZero t) = true then _ else _ : Res (Itv T)) = _ at h
  have hz : isZero t = false := by
    rw [rep_isZero hR, decide_eq_false_iff_not]
    exact fun e => hM.not_zero (e ▸ hd)
  rw [hz] at h
  change (if isNeg t = true then _ else _ : Res (Itv T)) = _ at h
  simp only [rep_isNeg hR, decide_eq_true_eq] at h
  split_ifs at h with h5
  · obtain ⟨e1, e2⟩ := mk2_ok h
    exact ⟨(hB.divDown e1).2.trans (hM.div_mono' _ _ _ hd ha.2 h5.le), (hM.div_mono' _ _ _ hd ha.1 h5.le).trans (hB.divUp e2).2⟩
  · obtain ⟨e1, e2⟩ := mk2_ok h
    exact ⟨(hB.divDown e1).2.trans (hM.div_mono _ _ _ hd ha.1 (not_lt.1 h5)), (hM.div_mono _ _ _ hd ha.2 (not_lt.1 h5)).trans (hB.divUp e2).2⟩

theorem rep_inv (hi : Num.hasInf T = true ∨ nd = false) (ha : x.Holds val a) (hd : O.divisor a) (h : multInv pol x = .ok z) :
    z.Holds val (O.div O.one a) := by
  unfold multInv at h
  change (testI C x >>= _) = _ at h
  rw [rep_testI hR ha] at h
  change (zeroIn C x >>= _) = _ at h
  rw [rep_zeroIn hR hM hB ha] at h
  change (if (_ && _) = true then _ else _ : Res (Itv T)) = _ at h
  rw [← hR.one]
  have h1' : O.zero ≤ val (Num.lit 1) := hR.one ▸ hM.zero_one
  split_ifs at h with h1 h2 h3 h3
  · exact rep_whole hR hM hB hi h _
  · simp only [rep_isZero hR, Bool.not_eq_true', decide_eq_false_iff_not, Bool.and_eq_true, decide_eq_true_eq, not_not] at h1 h2 h3
    refine rep_mkNegInf hR hM hB hi h fun c hc => ?_
    obtain ⟨d1, e1⟩ := hB.divUp hc
    exact (hM.div_anti _ _ _ d1 hd ha.1 (.inr (ha.2.trans h3.le)) h1').trans e1
  · simp only [rep_isZero hR, Bool.not_eq_true', decide_eq_false_iff_not, Bool.and_eq_true, decide_eq_true_eq, not_not] at h1 h2 h3
    refine rep_mkPosInf hR hM hB hi h fun c hc => ?_
    obtain ⟨d1, e1⟩ := hB.divDown hc
    exact e1.trans (hM.div_anti _ _ _ hd d1 ha.2 (.inl (h2.ge.trans ha.1)) h1')
  · simp only [rep_isZero hR, Bool.not_eq_true', decide_eq_false_iff_not, Bool.and_eq_true, decide_eq_true_eq, not_not] at h1 h2 h3
    have : a = O.zero := le_antisymm (ha.2.trans h3.le) (h2.ge.trans ha.1)
    exact absurd (this ▸ hd) hM.not_zero
  · simp only [Bool.and_eq_true, decide_eq_true_eq, not_and_or, not_le] at h1
    have hs : O.zero ≤ val x.lower ∨ val x.upper ≤ O.zero := h1.imp le_of_lt le_of_lt
    have hs1 : O.zero ≤ val x.lower ∨ a ≤ O.zero := hs.imp_right ha.2.trans
    have hs2 : O.zero ≤ a ∨ val x.upper ≤ O.zero := hs.imp_left fun h => h.trans ha.1
    obtain ⟨e1, e2⟩ := mk2_ok h
    obtain ⟨d1, e1⟩ := hB.divDown e1
    obtain ⟨d2, e2⟩ := hB.divUp e2
    exact ⟨e1.trans (hM.div_anti _ _ _ hd d1 ha.2 hs2 h1'), (hM.div_anti _ _ _ d2 hd ha.1 hs1 h1').trans e2⟩
end

/-! ### Signs, squares -/

theorem rep_negI (ha : x.Holds val a) (h : negI C x = .ok z) : z.Holds val (O.neg a) := by
  unfold negI at h
  rw [rep_testI hR ha] at h
  obtain ⟨l, hl, h⟩ := okb (r := ofOpt (Num.neg x.upper)) (f := fun _ => _) h
  obtain ⟨u, hu, h⟩ := okb h
  cases h
  refine ⟨?_, ?_⟩
  · change val l ≤ _
    rw [hR.neg _ _ (ofOpt_ok hl)]; exact hM.neg_anti _ _ ha.2
  · change _ ≤ val u
    rw [hR.neg _ _ (ofOpt_ok hu)]; exact hM.neg_anti _ _ ha.1

theorem rep_neg_nonneg {a : D} (h : a ≤ O.zero) : O.zero ≤ O.neg a := by simpa [hM.neg_zero] using hM.neg_anti _ _ h
theorem rep_neg_nonpos {a : D} (h : O.zero ≤ a) : O.neg a ≤ O.zero := by simpa [hM.neg_zero] using hM.neg_anti _ _ h

theorem rep_absI (ha : x.Holds val a) (hd : (O.zero ≤ a ∧ d = a) ∨ (a ≤ O.zero ∧ d = O.neg a)) (h : absI C x = .ok z) :
    z.Holds val d := by
  unfold absI at h
  rw [rep_testI hR ha] at h
  change (if (!isNeg x.lower) = true then _ else _ : Res (Itv T)) = _ at h
  simp only [rep_isNeg hR, rep_isPos hR, Bool.not_eq_true', decide_eq_false_iff_not, not_lt] at h
  split_ifs at h with h1 h2
  · cases h
    have h0 := h1.trans ha.1
    rcases hd with ⟨_, e⟩ | ⟨h3, e⟩
    · exact e ▸ ha
    · have : a = O.zero := le_antisymm h3 h0
      rw [this, hM.neg_zero] at e
      rw [e, ← this]; exact ha
  · rcases hd with ⟨h3, e⟩ | ⟨h3, e⟩
    · have h0 : a = O.zero := le_antisymm (ha.2.trans h2) h3
      rw [e, h0, ← hM.neg_zero, ← h0]
      exact rep_negI hR hM hB ha h
    · exact e ▸ rep_negI hR hM hB ha h
  · obtain ⟨nl, hl, h⟩ := okb h
    cases h
    refine ⟨?_, ?_⟩
    · change val (Num.lit 0) ≤ _
      rw [hR.zero]
      rcases hd with ⟨h3, e⟩ | ⟨h3, e⟩
      · exact e ▸ h3
      · exact e ▸ rep_neg_nonneg hR hM hB h3
    · change _ ≤ val (stdMax _ _)
      rw [rep_max hR, hR.neg _ _ (ofOpt_ok hl)]
      rcases hd with ⟨h3, e⟩ | ⟨h3, e⟩
      · exact e ▸ ha.2.trans (le_max_right _ _)
      · exact e ▸ (hM.neg_anti _ _ ha.1).trans (le_max_left _ _)

theorem sq_le_of_nonneg {a b : D} (h0 : O.zero ≤ a) (h : a ≤ b) : O.mul a a ≤ O.mul b b := hM.mU1 h h h0 (h0.trans h)
theorem sq_le_of_nonpos {a b : D} (h0 : b ≤ O.zero) (h : a ≤ b) : O.mul b b ≤ O.mul a a := hM.mU2 h h h0 (h.trans h0)
theorem sq_nonneg' (a : D) : O.zero ≤ O.mul a a := by
  rcases le_total O.zero a with h | h
  · have := hM.mul_left _ _ _ h h; rwa [hM.mul_zero] at this
  · have := hM.mul_left' _ _ _ h h; rwa [hM.mul_zero] at this

theorem rep_square (ha : x.Holds val a) (h : squareI pol x = .ok z) : z.Holds val (O.mul a a) := by
  unfold squareI at h
  change (testI C x >>= _) = _ at h
  rw [rep_testI hR ha] at h
  change (if isNeg x.upper = true then _ else _ : Res (Itv T)) = _ at h
  simp only [rep_isNeg hR, rep_isPos hR, decide_eq_true_eq] at h
  split_ifs at h with h1 h2
  · obtain ⟨e1, e2⟩ := mk2_ok h
    exact ⟨(hB.mulDown e1).trans (sq_le_of_nonpos hR hM hB h1.le ha.2),
      (sq_le_of_nonpos hR hM hB (ha.2.trans h1.le) ha.1).trans (hB.mulUp e2)⟩
  · obtain ⟨e1, e2⟩ := mk2_ok h
    exact ⟨(hB.mulDown e1).trans (sq_le_of_nonneg hR hM hB h2.le ha.1),
      (sq_le_of_nonneg hR hM hB (h2.le.trans ha.1) ha.2).trans (hB.mulUp e2)⟩
  · obtain ⟨nl, hl, h⟩ := okb (r := ofOpt (Num.neg x.lower)) (f := fun _ => _) h
    have hnl := hR.neg _ _ (ofOpt_ok hl)
    obtain ⟨u, hu, h⟩ := okb h
    cases h
    refine ⟨hR.zero.le.trans (sq_nonneg' hR hM hB a), ?_⟩
    change _ ≤ val u
    have hl0 := not_lt.1 h2
    have hu0 := not_lt.1 h1
    have hln := rep_neg_nonneg hR hM hB hl0
    split at hu
    · next h5 =>
      have h5 := (hR.lt_iff _ _).1 h5
      rw [hnl] at h5
      refine le_trans ?_ (hB.mulUp hu)
      rcases le_total a O.zero with h6 | h6
      · exact sq_le_of_nonpos hR hM hB h6 ha.1
      · rw [← hM.sq_neg (val x.lower)]
        exact sq_le_of_nonneg hR hM hB h6 (ha.2.trans h5.le)
    · next h5 =>
      have h5 : O.neg (val x.lower) ≤ val x.upper := by
        rw [← hnl]; exact not_lt.1 fun h => h5 ((hR.lt_iff _ _).2 h)
      refine le_trans ?_ (hB.mulUp hu)
      rcases le_total a O.zero with h6 | h6
      · rw [← hM.sq_neg a]
        exact sq_le_of_nonneg hR hM hB (rep_neg_nonneg hR hM hB h6) ((hM.neg_anti _ _ ha.1).trans h5)
      · exact sq_le_of_nonneg hR hM hB h6 ha.2

/-! ### Order -/

theorem rep_minII (ha : x.Holds val a) (hb : y.Holds val b) (h : minII C x y = .ok z) : z.Holds val (min a b) := by
  unfold minII at h; rw [rep_testII hR ha hb] at h; cases h
  exact ⟨(rep_min hR _ _).trans_le (min_le_min ha.1 hb.1), (min_le_min ha.2 hb.2).trans (rep_min hR _ _).ge⟩
theorem rep_maxII (ha : x.Holds val a) (hb : y.Holds val b) (h : maxII C x y = .ok z) : z.Holds val (max a b) := by
  unfold maxII at h; rw [rep_testII hR ha hb] at h; cases h
  exact ⟨(rep_max hR _ _).trans_le (max_le_max ha.1 hb.1), (max_le_max ha.2 hb.2).trans (rep_max hR _ _).ge⟩
theorem rep_minTI (hb : y.Holds val b) (h : minTI C t y = .ok z) : z.Holds val (min (val t) b) := by
  unfold minTI at h; rw [rep_testTI hR hb] at h; cases h
  exact ⟨(rep_min hR _ _).trans_le (min_le_min le_rfl hb.1), (min_le_min le_rfl hb.2).trans (rep_min hR _ _).ge⟩
theorem rep_maxTI (hb : y.Holds val b) (h : maxTI C t y = .ok z) : z.Holds val (max (val t) b) := by
  unfold maxTI at h; rw [rep_testTI hR hb] at h; cases h
  exact ⟨(rep_max hR _ _).trans_le (max_le_max le_rfl hb.1), (max_le_max le_rfl hb.2).trans (rep_max hR _ _).ge⟩
theorem rep_minIT (ha : x.Holds val a) (h : minIT C x t = .ok z) : z.Holds val (min a (val t)) := by
  unfold minIT at h; rw [rep_testIT hR ha] at h; cases h
  exact ⟨(rep_min hR _ _).trans_le (min_le_min ha.1 le_rfl), (min_le_min ha.2 le_rfl).trans (rep_min hR _ _).ge⟩
theorem rep_maxIT (ha : x.Holds val a) (h : maxIT C x t = .ok z) : z.Holds val (max a (val t)) := by
  unfold maxIT at h; rw [rep_testIT hR ha] at h; cases h
  exact ⟨(rep_max hR _ _).trans_le (max_le_max ha.1 le_rfl), (max_le_max ha.2 le_rfl).trans (rep_max hR _ _).ge⟩

theorem rep_hullII (ha : x.Holds val a) (hb : y.Holds val b) (hd : min a b ≤ d ∧ d ≤ max a b) (h : hullII C x y = .ok z) :
    z.Holds val d := by
  unfold hullII at h
  rw [rep_testI hR ha, rep_testI hR hb] at h
  cases h
  exact ⟨(rep_min hR _ _).trans_le ((min_le_min ha.1 hb.1).trans hd.1), (hd.2.trans (max_le_max ha.2 hb.2)).trans (rep_max hR _ _).ge⟩
theorem rep_hullTI (hb : y.Holds val b) (hd : min (val t) b ≤ d ∧ d ≤ max (val t) b) (h : hullTI C t y = .ok z) :
    z.Holds val d := by
  unfold hullTI at h
  rw [rep_testI hR hb, show testT C t = _ from rep_isNan hR sp nd t] at h
  cases h
  exact ⟨(rep_min hR _ _).trans_le ((min_le_min le_rfl hb.1).trans hd.1), (hd.2.trans (max_le_max le_rfl hb.2)).trans (rep_max hR _ _).ge⟩
theorem rep_hullIT (ha : x.Holds val a) (hd : min a (val t) ≤ d ∧ d ≤ max a (val t)) (h : hullIT C x t = .ok z) :
    z.Holds val d := by
  unfold hullIT at h
  rw [rep_testI hR ha, show testT C t = _ from rep_isNan hR sp nd t] at h
  cases h
  exact ⟨(rep_min hR _ _).trans_le ((min_le_min ha.1 le_rfl).trans hd.1), (hd.2.trans (max_le_max ha.2 le_rfl)).trans (rep_max hR _ _).ge⟩

theorem rep_intersect (ha : x.Holds val a) (hb : y.Holds val a) (h : intersect C x y = .ok z) : z.Holds val a := by
  unfold intersect at h
  rw [rep_testII hR ha hb] at h
  change (if Num.le (stdMax _ _) (stdMin _ _) = true then _ else _ : Res (Itv T)) = _ at h
  have h1 : val (stdMax x.lower y.lower) ≤ a := (rep_max hR _ _).trans_le (max_le ha.1 hb.1)
  have h2 : a ≤ val (stdMin x.upper y.upper) := (le_min ha.2 hb.2).trans (rep_min hR _ _).ge
  rw [if_pos ((hR.le_iff _ _).2 (h1.trans h2))] at h
  cases h
  exact ⟨h1, h2⟩

/-! ### Powers -/

section
variable (hP : O.Powers)
include hP

theorem npow_nonneg {a : D} (h : O.zero ≤ a) (n : ℕ) : O.zero ≤ O.npow a n := by
  induction n with
  | zero => exact hM.zero_one
  | succ n ih => have := hM.mul_left _ _ _ h ih; rwa [hM.mul_zero] at this

theorem npow_mono {a b : D} (h0 : O.zero ≤ a) (h : a ≤ b) (n : ℕ) : O.npow a n ≤ O.npow b n := by
  induction n with
  | zero => exact le_rfl
  | succ n ih => exact hM.mU1 ih h (npow_nonneg hR hM hB hP h0 n) (h0.trans h)

theorem npow_add (a : D) (m n : ℕ) : O.npow a (m + n) = O.mul (O.npow a m) (O.npow a n) := by
  induction n with
  | zero => exact ((hM.mul_comm _ _).trans (hP.one_mul _)).symm
  | succ n ih =>
    change O.mul (O.npow a (m + n)) a = O.mul (O.npow a m) (O.mul (O.npow a n) a)
    rw [ih, hP.mul_assoc]

theorem npow_sq (a : D) (n : ℕ) : O.npow (O.mul a a) n = O.npow a (2 * n) := by
  induction n with
  | zero => rfl
  | succ n ih =>
    change O.mul (O.npow _ n) _ = O.mul (O.mul (O.npow a (2 * n)) a) a
    rw [ih, hP.mul_assoc]

theorem npow_one (a : D) : O.npow a 1 = a := hP.one_mul a

theorem npow_neg (a : D) (n : ℕ) : O.npow (O.neg a) n = if n % 2 = 1 then O.neg (O.npow a n) else O.npow a n := by
  induction n with
  | zero => rfl
  | succ n ih =>
    change O.mul (O.npow (O.neg a) n) (O.neg a) = _
    have hm : ∀ x, O.mul x (O.neg a) = O.neg (O.mul x a) := fun x => by
      rw [hM.mul_comm, hP.neg_mul, hM.mul_comm]
    rw [ih]
    by_cases h : n % 2 = 1
    · rw [if_pos h, if_neg (by omega), hm, hP.neg_mul, hP.neg_neg]; rfl
    · rw [if_neg h, if_pos (by omega), hm]; rfl

theorem rep_powLoop_up (n : ℕ) : ∀ {x y c : T} {X Y : D}, O.zero ≤ X → O.zero ≤ Y → X ≤ val x → Y ≤ val y →
    powLoop B.mulUp n x y = .ok c → O.mul (O.npow X (2 * n)) Y ≤ val c := by
  induction n using Nat.strong_induction_on with
  | _ n ih =>
    intro x y c X Y hX hY hx hy h
    unfold powLoop at h
    split at h
    · next h0 => cases h; subst h0; exact (hP.one_mul Y).trans_le hy
    · next h0 =>
      obtain ⟨x', hx', h⟩ := okb h
      obtain ⟨y', hy', h⟩ := okb h
      have e1 : O.mul X X ≤ val x' := (sq_le_of_nonneg hR hM hB hX hx).trans (hB.mulUp hx')
      have p1 := sq_nonneg' hR hM hB X
      split at hy'
      · next h1 =>
        have e2 : O.mul (O.mul X X) Y ≤ val y' := (hM.mU1 e1 hy p1 (hY.trans hy)).trans (hB.mulUp hy')
        have p2 : O.zero ≤ O.mul (O.mul X X) Y := by have := hM.mul_left _ _ _ hY p1; rwa [hM.mul_zero] at this
        have := ih (n / 2) (by omega) p1 p2 e1 e2 h
        refine le_trans (le_of_eq ?_) this
        rw [npow_sq hR hM hB hP, ← hP.mul_assoc]
        congr 1
        change _ = O.mul (O.npow X _) (O.mul X X)
        rw [show 2 * n = 2 * (2 * (n / 2)) + 1 + 1 by omega]
        change O.mul (O.mul (O.npow X _) X) X = _
        rw [hP.mul_assoc]
      · cases hy'
        have := ih (n / 2) (by omega) p1 hY e1 hy h
        rwa [npow_sq hR hM hB hP, show 2 * (2 * (n / 2)) = 2 * n by omega] at this

theorem rep_powLoop_down (hK : ∀ {a b c : T}, O.zero ≤ val a → O.zero ≤ val b → B.mulDown a b = .ok c → O.zero ≤ val c) (n : ℕ) :
    ∀ {x y c : T} {X Y : D}, O.zero ≤ val x → O.zero ≤ val y → val x ≤ X → val y ≤ Y →
    powLoop B.mulDown n x y = .ok c → val c ≤ O.mul (O.npow X (2 * n)) Y := by
  induction n using Nat.strong_induction_on with
  | _ n ih =>
    intro x y c X Y hX hY hx hy h
    unfold powLoop at h
    split at h
    · next h0 => cases h; subst h0; exact hy.trans (hP.one_mul Y).ge
    · next h0 =>
      obtain ⟨x', hx', h⟩ := okb h
      obtain ⟨y', hy', h⟩ := okb h
      have e1 : val x' ≤ O.mul X X := (hB.mulDown hx').trans (sq_le_of_nonneg hR hM hB hX hx)
      have p1 := hK hX hX hx'
      split at hy'
      · next h1 =>
        have e2 : val y' ≤ O.mul (O.mul X X) Y := (hB.mulDown hy').trans (hM.mU1 e1 hy p1 (hY.trans hy))
        have := ih (n / 2) (by omega) p1 (hK p1 hY hy') e1 e2 h
        refine this.trans (le_of_eq ?_)
        rw [npow_sq hR hM hB hP, ← hP.mul_assoc]
        congr 1
        change O.mul (O.npow X _) (O.mul X X) = _
        rw [show 2 * n = 2 * (2 * (n / 2)) + 1 + 1 by omega]
        change _ = O.mul (O.mul (O.npow X _) X) X
        rw [hP.mul_assoc]
      · cases hy'
        have := ih (n / 2) (by omega) p1 hY e1 hy h
        rwa [npow_sq hR hM hB hP, show 2 * (2 * (n / 2)) = 2 * n by omega] at this

theorem npow_split (X : D) (n : ℕ) : O.mul (O.npow X (2 * (n / 2))) (if n % 2 = 1 then X else O.one) = O.npow X n := by
  split
  · next h =>
    conv_rhs => rw [show n = 2 * (n / 2) + 1 by omega]
    rfl
  · next h =>
    rw [hM.mul_comm, hP.one_mul, show 2 * (n / 2) = n by omega]

theorem rep_powUp {c u : T} {X : D} (hX : O.zero ≤ X) (hx : X ≤ val u) {n : ℕ} (h : powAux B.mulUp u n = .ok c) : O.npow X n ≤ val c := by
  rw [← npow_split hR hM hB hP X n]
  refine rep_powLoop_up hR hM hB hP _ hX ?_ hx ?_ h
  · split <;> [exact hX; exact hM.zero_one]
  · split <;> [exact hx; exact hR.one.ge]

theorem rep_powDown (hK : ∀ {a b c : T}, O.zero ≤ val a → O.zero ≤ val b → B.mulDown a b = .ok c → O.zero ≤ val c)
    {c u : T} {X : D} (hX : O.zero ≤ val u) (hx : val u ≤ X) {n : ℕ} (h : powAux B.mulDown u n = .ok c) : val c ≤ O.npow X n := by
  rw [← npow_split hR hM hB hP X n]
  refine rep_powLoop_down hR hM hB hP hK _ hX ?_ hx ?_ h
  · split <;> [exact hX; exact hR.one ▸ hM.zero_one]
  · split <;> [exact hx; exact hR.one.le]

theorem rep_powNat (hK : ∀ {a b c : T}, O.zero ≤ val a → O.zero ≤ val b → B.mulDown a b = .ok c → O.zero ≤ val c)
    (ha : x.Holds val a) (n : ℕ) (h0 : n = 0 → a ≠ O.zero) (h : powNat pol x n = .ok z) : z.Holds val (O.npow a n) := by
  unfold powNat at h
  change (testI C x >>= _) = _ at h
  rw [rep_testI hR ha] at h
  change (if n = 0 then _ else _ : Res (Itv T)) = _ at h
  by_cases hn : n = 0
  · subst hn
    rw [if_pos rfl] at h
    by_cases h4 : (isZero x.lower && isZero x.upper) = true
    · simp only [rep_isZero hR, Bool.and_eq_true, decide_eq_true_eq] at h4
      exact absurd (le_antisymm (ha.2.trans h4.2.le) (h4.1.ge.trans ha.1)) (h0 rfl)
    · rw [if_neg h4] at h
      have := rep_ctor hR h
      rwa [hR.one] at this
  rw [if_neg hn] at h
  change (if isNeg x.upper = true then _ else _ : Res (Itv T)) = _ at h
  simp only [rep_isNeg hR, decide_eq_true_eq] at h
  have hneg : ∀ {t c : T}, negM t = (.ok c : Res T) → val c = O.neg (val t) := fun h => hR.neg _ _ (ofOpt_ok h)
  have nn : ∀ {a : D}, a ≤ O.zero → O.zero ≤ O.neg a := rep_neg_nonneg hR hM hB
  have np : ∀ {a : D}, O.zero ≤ a → O.neg a ≤ O.zero := rep_neg_nonpos hR hM hB
  have hodd : n % 2 = 1 → O.npow a n = O.neg (O.npow (O.neg a) n) := fun h => by
    rw [npow_neg hR hM hB hP, if_pos h, hP.neg_neg]
  have heven : ¬ n % 2 = 1 → O.npow a n = O.npow (O.neg a) n := fun h => by
    rw [npow_neg hR hM hB hP, if_neg h]
  by_cases h1 : val x.upper < O.zero
  · rw [if_pos h1] at h
    have ha0 := ha.2.trans h1.le
    obtain ⟨nu, hnu, h⟩ := okb h
    obtain ⟨yl, hyl, h⟩ := okb h
    obtain ⟨nl, hnl, h⟩ := okb h
    obtain ⟨yu, hyu, h⟩ := okb h
    have hl : val yl ≤ O.npow (O.neg a) n :=
      rep_powDown hR hM hB hP hK (hneg hnu ▸ nn h1.le) (hneg hnu ▸ hM.neg_anti _ _ ha.2) hyl
    have hu : O.npow (O.neg a) n ≤ val yu := rep_powUp hR hM hB hP (nn ha0) (hneg hnl ▸ hM.neg_anti _ _ ha.1) hyu
    split at h
    · next h2 =>
      obtain ⟨c1, hc1, h⟩ := okb h
      obtain ⟨c2, hc2, h⟩ := okb h
      cases h
      rw [hodd h2]
      exact ⟨(hneg hc1).trans_le (hM.neg_anti _ _ hu), (hM.neg_anti _ _ hl).trans (hneg hc2).ge⟩
    · next h2 =>
      cases h
      rw [heven h2]
      exact ⟨hl, hu⟩
  rw [if_neg h1] at h
  have h1 := not_lt.1 h1
  by_cases h2 : val x.lower < O.zero
  · rw [if_pos h2] at h
    split at h
    · next h3 =>
      obtain ⟨e1, e2⟩ := mk2_ok h
      obtain ⟨nl, hnl, e1⟩ := okb e1
      obtain ⟨p, hp, e1⟩ := okb e1
      refine ⟨(hneg e1).trans_le ?_, ?_⟩
      · rcases le_total a O.zero with h4 | h4
        · rw [hodd h3]
          exact hM.neg_anti _ _ (rep_powUp hR hM hB hP (nn h4) (hneg hnl ▸ hM.neg_anti _ _ ha.1) hp)
        · have := rep_powUp hR hM hB hP (nn h2.le) (hneg hnl).ge hp
          exact (np ((npow_nonneg hR hM hB hP (nn h2.le) n).trans this)).trans (npow_nonneg hR hM hB hP h4 n)
      · rcases le_total a O.zero with h4 | h4
        · have := rep_powUp hR hM hB hP h1 le_rfl e2
          rw [hodd h3]
          exact (np (npow_nonneg hR hM hB hP (nn h4) n)).trans ((npow_nonneg hR hM hB hP h1 n).trans this)
        · exact rep_powUp hR hM hB hP h4 ha.2 e2
    · next h3 =>
      obtain ⟨nl, hnl, h⟩ := okb h
      obtain ⟨u, hu, h⟩ := okb h
      cases h
      rcases le_total a O.zero with h4 | h4
      · rw [heven h3]
        refine ⟨hR.zero.le.trans (npow_nonneg hR hM hB hP (nn h4) n), rep_powUp hR hM hB hP (nn h4) ?_ hu⟩
        rw [rep_max hR, hneg hnl]
        exact (hM.neg_anti _ _ ha.1).trans (le_max_left _ _)
      · refine ⟨hR.zero.le.trans (npow_nonneg hR hM hB hP h4 n), rep_powUp hR hM hB hP h4 ?_ hu⟩
        rw [rep_max hR]
        exact ha.2.trans (le_max_right _ _)
  · rw [if_neg h2] at h
    have h2 := not_lt.1 h2
    obtain ⟨e1, e2⟩ := mk2_ok h
    exact ⟨rep_powDown hR hM hB hP hK h2 ha.1 e1, rep_powUp hR hM hB hP (h2.trans ha.1) ha.2 e2⟩

theorem rep_pow (hK : ∀ {a b c : T}, O.zero ≤ val a → O.zero ≤ val b → B.mulDown a b = .ok c → O.zero ≤ val c)
    (hi : Num.hasInf T = true ∨ nd = false) (ha : x.Holds val a) (k : ℤ) (hd : powIdeal O a k d) (h : powI pol x k = .ok z) :
    z.Holds val d := by
  unfold powI at h
  change (testI C x >>= _) = _ at h
  rw [rep_testI hR ha] at h
  change (if k < 0 then _ else _ : Res (Itv T)) = _ at h
  obtain ⟨d1, d2, d3⟩ := hd
  split at h
  · next h1 =>
    split at h
    · cases h
    · obtain ⟨r, hr, h⟩ := okb h
      obtain ⟨d3, e⟩ := d3 h1
      rw [e]
      exact rep_inv hR hM hB hi (rep_powNat hR hM hB hP hK ha _ (by omega) hr) d3 h
  · next h1 =>
    rcases eq_or_ne k 0 with h2 | h2
    · obtain ⟨d4, e⟩ := d2 h2
      subst h2
      rw [e]
      exact rep_powNat hR hM hB hP hK ha 0 (fun _ => d4) h
    · rw [d1 (by omega)]
      exact rep_powNat hR hM hB hP hK ha _ (by omega) h
end

/-! ### Formulas -/

theorem rep_II (hi : Num.hasInf T = true ∨ nd = false) (o : BinOp) (ha : x.Holds val a) (hb : y.Holds val b) (hd : o.Ideal O a b d)
    (h : o.II pol x y = .ok z) : z.Holds val d := by
  cases o with
  | add => exact hd ▸ rep_add hR hM hB ha hb h
  | sub => exact hd ▸ rep_sub hR hM hB ha hb h
  | mul => exact hd ▸ rep_mul hR hM hB ha hb h
  | div => exact hd.2 ▸ rep_div hR hM hB hi ha hb hd.1 h
  | min => exact hd ▸ rep_minII hR hM hB ha hb h
  | max => exact hd ▸ rep_maxII hR hM hB ha hb h
  | hull => exact rep_hullII hR hM hB ha hb hd h

theorem rep_TI (hi : Num.hasInf T = true ∨ nd = false) (o : BinOp) (hb : y.Holds val b) (hd : o.Ideal O (val t) b d)
    (h : o.TI pol t y = .ok z) : z.Holds val d := by
  cases o with
  | add => exact hd ▸ rep_addT hR hM hB hb h
  | sub => exact hd ▸ rep_subTI hR hM hB hb h
  | mul => exact hd ▸ rep_mulT hR hM hB hb h
  | div => exact hd.2 ▸ rep_divTI hR hM hB hi hb hd.1 h
  | min => exact hd ▸ rep_minTI hR hM hB hb h
  | max => exact hd ▸ rep_maxTI hR hM hB hb h
  | hull => exact rep_hullTI hR hM hB hb hd h

theorem rep_IT (o : BinOp) (ha : x.Holds val a) (hd : o.Ideal O a (val t) d)
    (h : o.IT pol x t = .ok z) : z.Holds val d := by
  cases o with
  | add => exact (hd.trans (hM.add_comm _ _)) ▸ rep_addT hR hM hB ha h
  | sub => exact hd ▸ rep_subIT hR hM hB ha h
  | mul => exact (hd.trans (hM.mul_comm _ _)) ▸ rep_mulT hR hM hB ha h
  | div => exact hd.2 ▸ rep_divIT hR hM hB ha hd.1 h
  | min => exact hd ▸ rep_minIT hR hM hB ha h
  | max => exact hd ▸ rep_maxIT hR hM hB ha h
  | hull => exact rep_hullIT hR hM hB ha hd h

theorem rep_I (hi : Num.hasInf T = true ∨ nd = false) (o : UnOp) (ha : x.Holds val a) (hd : o.Ideal O a d)
    (h : o.I pol x = .ok z) : z.Holds val d := by
  cases o with
  | pos => cases h; exact hd ▸ ha
  | neg => exact hd ▸ rep_negI hR hM hB ha h
  | abs => exact rep_absI hR hM hB ha hd h
  | square => exact hd ▸ rep_square hR hM hB ha h
  | sqrt => exact hd.elim
  | inv => exact hd.2 ▸ rep_inv hR hM hB hi ha hd.1 h

theorem pair_ok {α β : Type} {a : Res α} {b : Res β} {p : α × β} (h : pair a b = .ok p) : a = .ok p.1 ∧ b = .ok p.2 := by
  rcases a with e | a
  · cases h
  · rcases b with e | b
    · cases h
    · cases h; exact ⟨rfl, rfl⟩

theorem rep_expr (hi : Num.hasInf T = true ∨ nd = false) (K : PiConst T) (fuel : ℕ) {ρ : ℕ → Itv T} {δ : ℕ → D}
    (hρ : ∀ i, (ρ i).Holds val (δ i)) (e : Expr T)
    (hp : e.usesPow = true → O.Powers ∧ ∀ {a b c : T}, O.zero ≤ val a → O.zero ≤ val b → B.mulDown a b = .ok c → O.zero ≤ val c) :
    ∀ {d : D} {z : Itv T}, e.Ideal O val δ d → e.eval K fuel pol ρ = .ok z → z.Holds val d := by
  induction e with
  | var i => intro d z hd h; cases h; exact hd ▸ hρ i
  | num t => intro d z hd h; exact hd ▸ rep_ctor hR h
  | un o e ih =>
    intro d z ⟨a, h1, h2⟩ h
    obtain ⟨x, hx, h⟩ := okb h
    exact rep_I hR hM hB hi o (ih hp h1 hx) h2 h
  | pow e k ih =>
    intro d z ⟨a, h1, h2⟩ h
    obtain ⟨x, hx, h⟩ := okb h
    exact rep_pow hR hM hB (hp rfl).1 (hp rfl).2 hi (ih (fun _ => hp rfl) h1 hx) k h2 h
  | bin o e₁ e₂ ih₁ ih₂ =>
    intro d z ⟨a, b, h1, h2, h3⟩ h
    obtain ⟨p, hx, h⟩ := okb h
    obtain ⟨e1, e2⟩ := pair_ok hR hM hB hx
    exact rep_II hR hM hB hi o (ih₁ (fun h => hp (by simp [Expr.usesPow, h])) h1 e1) (ih₂ (fun h => hp (by simp [Expr.usesPow, h])) h2 e2) h3 h
  | binL o t e ih =>
    intro d z ⟨a, h1, h2⟩ h
    obtain ⟨x, hx, h⟩ := okb h
    exact rep_TI hR hM hB hi o (ih hp h1 hx) h2 h
  | binR o e t ih =>
    intro d z ⟨a, h1, h2⟩ h
    obtain ⟨x, hx, h⟩ := okb h
    exact rep_IT hR hM hB o (ih hp h1 hx) h2 h
  | inter e₁ e₂ ih₁ ih₂ =>
    intro d z ⟨h1, h2⟩ h
    obtain ⟨p, hx, h⟩ := okb h
    obtain ⟨e1, e2⟩ := pair_ok hR hM hB hx
    exact rep_intersect hR hM hB (ih₁ (fun h => hp (by simp [Expr.usesPow, h])) h1 e1) (ih₂ (fun h => hp (by simp [Expr.usesPow, h])) h2 e2) h
  | fn f e ih => exact fun hd => hd.elim
end
end

end Dom

end BI
