import Mathlib.Tactic.IntervalCases
import Verif.Spec.Env
import Verif.Spec.Control
import Verif.Model.Platform
/-! # The back ends satisfy the laws of a rounding control -/

namespace BI

theorem maskWrite_bit {n : Nat} (mask v w : BitVec n) (i : Nat) :
    (maskWrite mask v w).getLsbD i = if mask.getLsbD i then v.getLsbD i else w.getLsbD i := by
  unfold maskWrite
  by_cases hi : i < n
  · simp only [BitVec.getLsbD_or, BitVec.getLsbD_and, BitVec.getLsbD_not, hi, decide_true, Bool.true_and]
    cases mask.getLsbD i <;> simp
  · have h (u : BitVec n) : u.getLsbD i = false := BitVec.getLsbD_of_ge u i (not_lt.1 hi)
    simp [h]

theorem maskWrite_restore {n : Nat} {mask w w' : BitVec n} (h : w &&& ~~~mask = w' &&& ~~~mask) :
    maskWrite mask w w' = w := by
  apply BitVec.eq_of_getLsbD_eq
  intro i hi
  rw [maskWrite_bit]
  split
  · rfl
  · next hm =>
    have := congrArg (fun u => u.getLsbD i) h
    simp only [BitVec.getLsbD_and, BitVec.getLsbD_not, hi, decide_true, Bool.true_and] at this
    simp only [Bool.not_eq_true] at hm
    simpa [hm] using this.symm

theorem maskWrite_same {n : Nat} (mask v w : BitVec n) : w &&& ~~~mask = maskWrite mask v w &&& ~~~mask := by
  apply BitVec.eq_of_getLsbD_eq
  intro i hi
  simp only [BitVec.getLsbD_and, BitVec.getLsbD_not, maskWrite_bit, hi, decide_true, Bool.true_and]
  cases mask.getLsbD i <;> simp

theorem mask_dir {n : Nat} (mask : BitVec n) (hi lo : Nat) (table : Bool → Bool → RMode) (v w : BitVec n)
    (h1 : mask.getLsbD hi = true) (h2 : mask.getLsbD lo = true) :
    table ((maskWrite mask v w).getLsbD hi) ((maskWrite mask v w).getLsbD lo) =
      table (v.getLsbD hi) (v.getLsbD lo) := by
  rw [maskWrite_bit, maskWrite_bit, h1, h2]; rfl

/-- Laws of a register back end: `same` compares the bits it does not write. -/
def regLaws (n : Nat) (mask : BitVec n) (hi lo : Nat) (table : Bool → Bool → RMode) (a b c d : BitVec n)
    (h1 : mask.getLsbD hi = true) (h2 : mask.getLsbD lo = true)
    (ha : table (a.getLsbD hi) (a.getLsbD lo) = .near) (hb : table (b.getLsbD hi) (b.getLsbD lo) = .down)
    (hc : table (c.getLsbD hi) (c.getLsbD lo) = .up) : CtlLaws (regCtl n mask hi lo table a b c d) where
  valid _ := True
  same := fun (w w' : BitVec n) => w &&& ~~~mask = w' &&& ~~~mask
  same_refl _ := rfl
  same_trans _ _ _ := Eq.trans
  valid_up _ _ := trivial
  valid_down _ _ := trivial
  valid_near _ _ := trivial
  same_up _ _ := maskWrite_same ..
  same_down _ _ := maskWrite_same ..
  same_near _ _ := maskWrite_same ..
  decode_up := fun (w : BitVec n) _ => (mask_dir mask hi lo table c w h1 h2).trans hc
  decode_down := fun (w : BitVec n) _ => (mask_dir mask hi lo table b w h1 h2).trans hb
  decode_near := fun (w : BitVec n) _ => (mask_dir mask hi lo table a w h1 h2).trans ha
  restore w w' _ h := maskWrite_restore h

def x86gcc_laws : CtlLaws x86gcc := regLaws _ _ _ _ _ _ _ _ _ (by decide) (by decide) (by decide) (by decide) (by decide)
def x86fastFloat_laws : CtlLaws x86fastFloat :=
  regLaws _ _ _ _ _ _ _ _ _ (by decide) (by decide) (by decide) (by decide) (by decide)
def x86fastDouble_laws : CtlLaws x86fastDouble :=
  regLaws _ _ _ _ _ _ _ _ _ (by decide) (by decide) (by decide) (by decide) (by decide)
def x86fastLongDouble_laws : CtlLaws x86fastLongDouble :=
  regLaws _ _ _ _ _ _ _ _ _ (by decide) (by decide) (by decide) (by decide) (by decide)
def bcc_laws : CtlLaws bcc := regLaws _ _ _ _ _ _ _ _ _ (by decide) (by decide) (by decide) (by decide) (by decide)
def ppc_laws : CtlLaws ppc := regLaws _ _ _ _ _ _ _ _ _ (by decide) (by decide) (by decide) (by decide) (by decide)
def sparc_laws : CtlLaws sparc := regLaws _ _ _ _ _ _ _ _ _ (by decide) (by decide) (by decide) (by decide) (by decide)
def alpha_laws : CtlLaws alpha := regLaws _ _ _ _ _ _ _ _ _ (by decide) (by decide) (by decide) (by decide) (by decide)

theorem fesetround_fe {X : Type} {fe : RMode → Int} (hfe : ∀ a b, fe a = fe b → a = b) (r : RMode) (w : FEnv X) :
    fesetround fe (fe r) w = { w with dir := r } := by
  have h : ∀ a b, fe a = fe b ↔ a = b := fun a b => ⟨hfe a b, fun h => by rw [h]⟩
  unfold fesetround
  cases r <;> simp [h]

def c99_laws (X : Type) (fe : RMode → Int) (hfe : ∀ a b, fe a = fe b → a = b) : CtlLaws (c99 X fe) where
  valid _ := True
  same := fun (w w' : FEnv X) => w.other = w'.other
  same_refl _ := rfl
  same_trans _ _ _ := Eq.trans
  valid_up _ _ := trivial
  valid_down _ _ := trivial
  valid_near _ _ := trivial
  same_up := fun (w : FEnv X) _ => by change w.other = (fesetround fe (fe .up) w).other; rw [fesetround_fe hfe]
  same_down := fun (w : FEnv X) _ => by change w.other = (fesetround fe (fe .down) w).other; rw [fesetround_fe hfe]
  same_near := fun (w : FEnv X) _ => by change w.other = (fesetround fe (fe .near) w).other; rw [fesetround_fe hfe]
  decode_up := fun (w : FEnv X) _ => by change (fesetround fe (fe .up) w).dir = _; rw [fesetround_fe hfe]
  decode_down := fun (w : FEnv X) _ => by change (fesetround fe (fe .down) w).dir = _; rw [fesetround_fe hfe]
  decode_near := fun (w : FEnv X) _ => by change (fesetround fe (fe .near) w).dir = _; rw [fesetround_fe hfe]
  restore := fun (w w' : FEnv X) _ h => by
    change fesetround fe (fe w.dir) w' = w
    rw [fesetround_fe hfe]
    cases w; cases w'; cases h; rfl

theorem feGlibc_inj : ∀ a b, feGlibc a = feGlibc b → a = b := by
  intro a b; cases a <;> cases b <;> decide

/-! ## Microsoft -/

/-- A word is determined on the fields handled by the library by eleven bits. -/
def msvcWord (b0 b1 b2 b3 b4 b8 b9 b16 b17 b18 b19 : Bool) : BitVec 32 :=
  (if b0 then 0x1 else 0) ||| (if b1 then 0x2 else 0) ||| (if b2 then 0x4 else 0) ||| (if b3 then 0x8 else 0) |||
  (if b4 then 0x10 else 0) ||| (if b8 then 0x100 else 0) ||| (if b9 then 0x200 else 0) |||
  (if b16 then 0x10000 else 0) ||| (if b17 then 0x20000 else 0) ||| (if b18 then 0x40000 else 0) |||
  (if b19 then 0x80000 else 0)

theorem ite_bit (b : Bool) (v : BitVec 32) (i : Nat) :
    (if b = true then v else 0).getLsbD i = (b && v.getLsbD i) := by cases b <;> simp

theorem msvc_decompose (n : BitVec 32) : n &&& msvcMask false =
    msvcWord (n.getLsbD 0) (n.getLsbD 1) (n.getLsbD 2) (n.getLsbD 3) (n.getLsbD 4) (n.getLsbD 8) (n.getLsbD 9)
      (n.getLsbD 16) (n.getLsbD 17) (n.getLsbD 18) (n.getLsbD 19) := by
  apply BitVec.eq_of_getLsbD_eq
  intro i hi
  unfold msvcWord
  simp only [BitVec.getLsbD_and, BitVec.getLsbD_or, ite_bit]
  interval_cases i <;>
    simp [msvcMask, MCW_EM, MCW_RC, MCW_PC, MCW_IC]

theorem and_sub {n m k : BitVec 32} (h : m &&& k = k) : n &&& k = (n &&& m) &&& k := by
  rw [BitVec.and_assoc, h]

theorem msvc2hard_mask (n : BitVec 32) : msvc2hard n = msvc2hard (n &&& msvcMask false) := by
  unfold msvc2hard
  simp only [← and_sub (n := n) (m := msvcMask false) (k := EM_INVALID) (by decide),
    ← and_sub (n := n) (m := msvcMask false) (k := EM_DENORMAL) (by decide),
    ← and_sub (n := n) (m := msvcMask false) (k := EM_ZERODIVIDE) (by decide),
    ← and_sub (n := n) (m := msvcMask false) (k := EM_OVERFLOW) (by decide),
    ← and_sub (n := n) (m := msvcMask false) (k := EM_UNDERFLOW) (by decide),
    ← and_sub (n := n) (m := msvcMask false) (k := EM_INEXACT) (by decide),
    ← and_sub (n := n) (m := msvcMask false) (k := MCW_RC) (by decide),
    ← and_sub (n := n) (m := msvcMask false) (k := MCW_PC) (by decide),
    ← and_sub (n := n) (m := msvcMask false) (k := MCW_IC) (by decide)]

theorem msvc_table : ∀ b0 b1 b2 b3 b4 b8 b9 b16 b17 b18 b19 : Bool, ¬ (b16 = true ∧ b17 = true) →
    hard2msvc (msvc2hard (msvcWord b0 b1 b2 b3 b4 b8 b9 b16 b17 b18 b19)) =
      msvcWord b0 b1 b2 b3 b4 b8 b9 b16 b17 b18 b19 := by
  decide +kernel

/-- The precision field does not hold the reserved value. -/
def msvcValid (n : BitVec 32) : Prop := n &&& MCW_PC ≠ MCW_PC

theorem msvcValid_iff (n : BitVec 32) : msvcValid n ↔ ¬ (n.getLsbD 16 = true ∧ n.getLsbD 17 = true) := by
  unfold msvcValid
  rw [not_iff_not]
  constructor
  · intro h
    have h1 := congrArg (fun u => u.getLsbD 16) h
    have h2 := congrArg (fun u => u.getLsbD 17) h
    simp [MCW_PC] at h1 h2
    exact ⟨h1, h2⟩
  · rintro ⟨h1, h2⟩
    apply BitVec.eq_of_getLsbD_eq
    intro i hi
    simp only [BitVec.getLsbD_and]
    interval_cases i <;> simp_all [MCW_PC]

/-- Converting to the hardware encoding and back. -/
theorem hard2msvc_msvc2hard (n : BitVec 32) (h : msvcValid n) : hard2msvc (msvc2hard n) = n &&& msvcMask false := by
  rw [msvc2hard_mask, msvc_decompose]
  exact msvc_table _ _ _ _ _ _ _ _ _ _ _ ((msvcValid_iff n).1 h)

theorem msvcSet_bit (x64 : Bool) (m : BitVec 16) (w : BitVec 32) (i : Nat) :
    (msvcSet x64 m w).getLsbD i = if (msvcMask x64).getLsbD i then (hard2msvc m).getLsbD i else w.getLsbD i :=
  maskWrite_bit ..

theorem msvcSet_valid (x64 : Bool) (m : BitVec 16) (w : BitVec 32) (h : msvcValid w) (hm : msvcValid (hard2msvc m)) :
    msvcValid (msvcSet x64 m w) := by
  rw [msvcValid_iff] at *
  rw [msvcSet_bit, msvcSet_bit]
  cases x64
  · rw [if_pos (by decide), if_pos (by decide)]; exact hm
  · rw [if_neg (by decide), if_neg (by decide)]; exact h

theorem msvcSet_decode (x64 : Bool) (m : BitVec 16) (w : BitVec 32) :
    x87Dir ((msvcSet x64 m w).getLsbD 9) ((msvcSet x64 m w).getLsbD 8) =
      x87Dir ((hard2msvc m).getLsbD 9) ((hard2msvc m).getLsbD 8) := by
  rw [msvcSet_bit, msvcSet_bit]
  cases x64 <;> rw [if_pos (by decide), if_pos (by decide)]

def msvc_laws (x64 : Bool) : CtlLaws (msvc x64) where
  valid := msvcValid
  same := fun (w w' : BitVec 32) => w &&& ~~~(msvcMask x64) = w' &&& ~~~(msvcMask x64)
  same_refl _ := rfl
  same_trans _ _ _ := Eq.trans
  valid_up w h := msvcSet_valid x64 _ w h (by unfold msvcValid; decide)
  valid_down w h := msvcSet_valid x64 _ w h (by unfold msvcValid; decide)
  valid_near w h := msvcSet_valid x64 _ w h (by unfold msvcValid; decide)
  same_up _ _ := maskWrite_same ..
  same_down _ _ := maskWrite_same ..
  same_near _ _ := maskWrite_same ..
  decode_up := fun (w : BitVec 32) _ => (msvcSet_decode x64 _ w).trans (by decide)
  decode_down := fun (w : BitVec 32) _ => (msvcSet_decode x64 _ w).trans (by decide)
  decode_near := fun (w : BitVec 32) _ => (msvcSet_decode x64 _ w).trans (by decide)
  restore := fun (w w' : BitVec 32) hw h => by
    change maskWrite (msvcMask x64) (hard2msvc (msvc2hard w)) w' = w
    rw [hard2msvc_msvc2hard w hw]
    have h2 : maskWrite (msvcMask x64) (w &&& msvcMask false) w' = maskWrite (msvcMask x64) w w' := by
      unfold maskWrite
      rw [BitVec.and_assoc]
      have : msvcMask false &&& msvcMask x64 = msvcMask x64 := by cases x64 <;> decide
      rw [this]
    rw [h2]
    exact maskWrite_restore h

/-- A transitive relation preserved by the switches. -/
theorem Switches.rel {c : Ctl} {R : c.W → c.W → Prop} (refl : ∀ w, R w w) (trans : ∀ u v w, R u v → R v w → R u w)
    (h1 : ∀ w, R w (c.upward w)) (h2 : ∀ w, R w (c.downward w)) (h3 : ∀ w, R w (c.toNearest w))
    (h4 : ∀ w, R w (c.towardZero w)) {w w' : c.W} (h : Switches c w w') : R w w' := by
  induction h with
  | refl => exact refl w
  | upward _ ih => exact trans _ _ _ ih (h1 _)
  | downward _ ih => exact trans _ _ _ ih (h2 _)
  | toNearest _ ih => exact trans _ _ _ ih (h3 _)
  | towardZero _ ih => exact trans _ _ _ ih (h4 _)

theorem maskWrite_all {n : Nat} (u w : BitVec n) : maskWrite (BitVec.allOnes n) u w = u := by
  apply BitVec.eq_of_getLsbD_eq; intro i hi; rw [maskWrite_bit, if_pos]; simp [hi]

theorem regCtl_roundTrips (n : Nat) (mask : BitVec n) (hi lo : Nat) (table : Bool → Bool → RMode) (a b c d : BitVec n) :
    RoundTrips (regCtl n mask hi lo table a b c d) (fun _ => True) := by
  intro w w' _ h
  exact maskWrite_restore (Switches.rel (R := fun w w' : BitVec n => w &&& ~~~mask = w' &&& ~~~mask)
    (fun _ => rfl) (fun _ _ _ => Eq.trans) (fun _ => maskWrite_same ..) (fun _ => maskWrite_same ..)
    (fun _ => maskWrite_same ..) (fun _ => maskWrite_same ..) h)

theorem regCtl_setsModes (n : Nat) (mask : BitVec n) (hi lo : Nat) (table : Bool → Bool → RMode) (a b c d : BitVec n)
    (h1 : mask.getLsbD hi = true) (h2 : mask.getLsbD lo = true)
    (ha : table (a.getLsbD hi) (a.getLsbD lo) = .near) (hb : table (b.getLsbD hi) (b.getLsbD lo) = .down)
    (hc : table (c.getLsbD hi) (c.getLsbD lo) = .up) (hd : table (d.getLsbD hi) (d.getLsbD lo) = .zero) :
    SetsModes (regCtl n mask hi lo table a b c d) (fun _ => True) := fun w _ =>
  ⟨(mask_dir mask hi lo table c w h1 h2).trans hc, (mask_dir mask hi lo table b w h1 h2).trans hb,
    (mask_dir mask hi lo table a w h1 h2).trans ha, (mask_dir mask hi lo table d w h1 h2).trans hd⟩

/-- A hardware word, up to the bits that are not handled, is one of these. -/
def hardWord (b0 b1 b2 b3 b4 b5 b8 b9 b10 b11 b12 : Bool) : BitVec 16 :=
  (if b0 then 0x1 else 0) ||| (if b1 then 0x2 else 0) ||| (if b2 then 0x4 else 0) ||| (if b3 then 0x8 else 0) |||
  (if b4 then 0x10 else 0) ||| (if b5 then 0x20 else 0) ||| (if b8 then 0x100 else 0) ||| (if b9 then 0x200 else 0) |||
  (if b10 then 0x400 else 0) ||| (if b11 then 0x800 else 0) ||| (if b12 then 0x1000 else 0)

theorem hard_decompose (n : BitVec 16) : n &&& 0x1f3f =
    hardWord (n.getLsbD 0) (n.getLsbD 1) (n.getLsbD 2) (n.getLsbD 3) (n.getLsbD 4) (n.getLsbD 5) (n.getLsbD 8)
      (n.getLsbD 9) (n.getLsbD 10) (n.getLsbD 11) (n.getLsbD 12) := by
  apply BitVec.eq_of_getLsbD_eq
  intro i hi
  have ite_bit (b : Bool) (v : BitVec 16) (i : Nat) :
    (if b = true then v else 0).getLsbD i = (b && v.getLsbD i) := by cases b <;> simp
  unfold hardWord
  simp only [BitVec.getLsbD_and, BitVec.getLsbD_or, ite_bit]
  interval_cases i <;> simp

theorem hard2msvc_mask (n : BitVec 16) : hard2msvc n = hard2msvc (n &&& 0x1f3f) := by
  have and_sub {k : BitVec 16} (h : (0x1f3f : BitVec 16) &&& k = k) : (n &&& 0x1f3f) &&& k = n &&& k := by
    rw [BitVec.and_assoc, h]
  unfold hard2msvc
  simp only [and_sub (k := 0x01) (by decide), and_sub (k := 0x02) (by decide), and_sub (k := 0x04) (by decide),
    and_sub (k := 0x08) (by decide), and_sub (k := 0x10) (by decide), and_sub (k := 0x20) (by decide),
    and_sub (k := 0x300) (by decide), and_sub (k := 0xC00) (by decide), and_sub (k := 0x1000) (by decide)]

theorem hard_table : ∀ b0 b1 b2 b3 b4 b5 b8 b9 b10 b11 b12 : Bool, ¬ (b8 = true ∧ b9 = false) →
    msvc2hard (hard2msvc (hardWord b0 b1 b2 b3 b4 b5 b8 b9 b10 b11 b12)) =
      hardWord b0 b1 b2 b3 b4 b5 b8 b9 b10 b11 b12 := by
  decide +kernel

end BI
