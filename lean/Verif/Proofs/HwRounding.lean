import Verif.Model.HwRounding
import Verif.Spec.HwRounding
import Verif.Proofs.PlatformLaws
import Verif.Proofs.ClientSim
/-! # The back ends on a machine with two units -/

namespace BI

/-! ## Reading hw_rounding.hpp -/

/-- Nothing provided yet, or one back end. -/
def PP.Good (o : Option PP) : Prop := ∀ s, o = some s → s = ⟨true, []⟩ ∨ ∃ b, s = ⟨false, [b]⟩

theorem PP.good_none : PP.Good none := fun _ h => by cases h
theorem PP.good_start : PP.Good (some ⟨true, []⟩) := fun _ h => by cases h; exact .inl rfl
theorem PP.good_provide (b : Backend) : PP.Good (PP.provide b ⟨true, []⟩) := fun _ h => by cases h; exact .inr ⟨b, rfl⟩
theorem PP.good_ite {c : Prop} [Decidable c] {a b : Option PP} (ha : PP.Good a) (hb : PP.Good b) : PP.Good (if c then a else b) := by
  split
  · exact ha
  · exact hb

theorem firstChoice_good (m : Macros) : PP.Good (firstChoice m ⟨true, []⟩) := by
  unfold firstChoice includeX86 includePpc includeSparc includeAlpha includeIa64
  repeat' first
    | exact PP.good_none
    | exact PP.good_start
    | exact PP.good_provide _
    | apply PP.good_ite

/-- Nothing provided yet, or one back end that suits the compiler. -/
def PP.Suits (m : Macros) (o : Option PP) : Prop := ∀ s, o = some s → s = ⟨true, []⟩ ∨ ∃ b, s = ⟨false, [b]⟩ ∧ b.Fits m

theorem PP.suits_none {m : Macros} : PP.Suits m none := fun _ h => by cases h
theorem PP.suits_start {m : Macros} : PP.Suits m (some ⟨true, []⟩) := fun _ h => by cases h; exact .inl rfl
theorem PP.suits_provide {m : Macros} {b : Backend} (hb : b.Fits m) : PP.Suits m (PP.provide b ⟨true, []⟩) :=
  fun _ h => by cases h; exact .inr ⟨b, rfl, hb⟩
theorem PP.suits_ite {m : Macros} {c : Prop} [Decidable c] {a b : Option PP} (ha : c → PP.Suits m a) (hb : ¬ c → PP.Suits m b) :
    PP.Suits m (if c then a else b) := by
  split
  · exact ha ‹_›
  · exact hb ‹_›

theorem includeX86_suits (m : Macros) (h : m.X86 ∨ m.borland = true ∧ m.clang = false) : PP.Suits m (includeX86 m ⟨true, []⟩) := by
  unfold includeX86
  refine PP.suits_ite (fun h1 => PP.suits_ite (fun _ => PP.suits_none) fun h2 => PP.suits_provide ?_) fun h1 =>
    PP.suits_ite (fun h2 => PP.suits_ite (fun _ => PP.suits_none) fun h3 => PP.suits_provide ?_) fun h2 =>
    PP.suits_ite (fun h3 => PP.suits_provide ?_) fun h3 => PP.suits_ite (fun h4 => PP.suits_provide ?_) fun _ => PP.suits_none
  · simp only [Bool.or_eq_true, Bool.and_eq_true] at h1
    refine ⟨h1, ?_⟩
    cases h3 : m.i386 <;> cases h4 : m.x86_64 <;> simp_all
  · simp_all [Backend.Fits]
  · exact ⟨h3, h.resolve_right fun h => h2 h.1⟩
  · simp only [Bool.or_eq_true] at h4
    exact ⟨h4, h.resolve_right fun h => h2 h.1⟩

theorem firstChoice_fits (m : Macros) : PP.Suits m (firstChoice m ⟨true, []⟩) := by
  unfold firstChoice includePpc includeSparc includeAlpha includeIa64
  refine PP.suits_ite (fun h => PP.suits_provide ?_) fun _ => PP.suits_ite (fun h => includeX86_suits m ?_) fun _ =>
    PP.suits_ite (fun h => includeX86_suits m ?_) fun _ => ?_
  · simp_all [Backend.Fits]
  · simp only [Bool.or_eq_true, Bool.and_eq_true, Bool.not_eq_true'] at h
    unfold Macros.X86
    tauto
  · simp only [Bool.and_eq_true] at h
    exact .inl (.inr (.inr (.inr (.inr h.1))))
  repeat' first
    | exact PP.suits_none
    | exact PP.suits_start
    | refine PP.suits_provide ?_
    | refine PP.suits_ite (fun _ => ?_) fun _ => ?_
  all_goals simp_all [Backend.Fits]

theorem oneCpu {m : Macros} (h : m.OneCpu) :
    ((m.ppc = true ∨ m.sparc = true ∨ m.alpha = true ∨ m.ia64 = true) →
      m.i386 = false ∧ m.mIX86 = false ∧ m.mX64 = false ∧ m.i386Sun = false) ∧
    (m.sparc = true → m.ppc = false) ∧ (m.alpha = true → m.ppc = false ∧ m.sparc = false) ∧
    (m.ia64 = true → m.ppc = false ∧ m.sparc = false ∧ m.alpha = false) := by
  unfold Macros.OneCpu at h
  have key : ∀ x a b c d : Bool, ([x, a, b, c, d].filter id).length ≤ 1 →
      ((a = true ∨ b = true ∨ c = true ∨ d = true) → x = false) ∧ (b = true → a = false) ∧
      (c = true → a = false ∧ b = false) ∧ (d = true → a = false ∧ b = false ∧ c = false) := by decide +kernel
  obtain ⟨k1, k2⟩ := key _ _ _ _ _ h
  refine ⟨fun h => ?_, k2⟩
  have := k1 h
  simp only [Bool.or_eq_false_iff] at this
  exact ⟨this.1.1.1.1, this.1.1.1.2, this.1.1.2, this.1.2⟩

theorem oneCompiler {m : Macros} (h : m.OneCompiler) :
    (m.borland = true → m.gnuc = false) ∧ (m.msc = true → m.gnuc = false ∧ m.borland = false) ∧
    ((m.mwerksIcc = true ∨ m.sunpro = true) → m.gnuc = false ∧ m.borland = false ∧ m.msc = false) := by
  unfold Macros.OneCompiler at h
  generalize (m.digital || m.deccxx) = x at h
  generalize m.ibm700 = y at h
  generalize m.gnuc = a at *
  generalize m.borland = b at *
  generalize m.msc = c at *
  generalize m.mwerksIcc = d at *
  generalize m.sunpro = e at *
  revert x y a b c d e
  decide +kernel

theorem dec_not_gnu {m : Macros} (h : m.OneCompiler) (hd : m.digital = true ∨ m.deccxx = true) : m.gnuc = false := by
  unfold Macros.OneCompiler at h
  generalize m.ibm700 = y at h
  generalize m.gnuc = a at *
  generalize m.borland = b at *
  generalize m.msc = c at *
  generalize m.mwerksIcc = d at *
  generalize m.sunpro = e at *
  generalize m.digital = f at *
  generalize m.deccxx = g at *
  revert y a b c d e f g
  decide +kernel

theorem x86_arm {m : Macros} (h : m.x86_64 = false) (h' : m.i386Sun = true → m.sunpro = true) (hx : m.X86) :
    (m.i386 || m.mIX86 || m.borland && !m.clang || m.mX64) = true ∨ (m.i386Sun && m.sunpro) = true := by
  rcases hx with hx | hx | hx | hx | hx
  · simp [hx]
  · rw [h] at hx; cases hx
  · simp [hx]
  · simp [hx]
  · simp [hx, h' hx]

theorem provide_some (b : Backend) (s : PP) : ∃ s', s.provide b = some s' := ⟨_, rfl⟩

theorem firstChoice_gnu (m : Macros) (hg : m.gnuc = true) (h1 : m.mIX86 = true → m.i386 = true)
    (h2 : m.mX64 = true → m.x86_64 = true) (h3 : m.borland = true → m.i386 = true ∨ m.x86_64 = true) (h4 : m.sunpro = false) :
    ∃ s, firstChoice m ⟨true, []⟩ = some s := by
  unfold firstChoice
  split
  · exact provide_some _ _
  split
  · next h =>
    have hx : m.i386 = true ∨ m.x86_64 = true := by
      simp only [Bool.or_eq_true, Bool.and_eq_true] at h
      rcases h with ((h | h) | h) | h
      · exact .inl h
      · exact .inl (h1 h)
      · exact h3 h.1
      · exact .inr (h2 h)
    unfold includeX86
    rw [hg, Bool.true_or, if_pos rfl, if_neg (by rcases hx with h | h <;> simp [h])]
    exact provide_some _ _
  rw [h4, Bool.and_false, if_neg Bool.false_ne_true]
  unfold includePpc includeSparc includeAlpha includeIa64
  simp only [hg, Bool.true_or, if_true]
  repeat' first
    | exact provide_some _ _
    | exact ⟨_, rfl⟩
    | split

/-! ## Two units -/

theorem x87Dir_inj {a b c d : Bool} (h : x87Dir a b = x87Dir c d) : a = c ∧ b = d := by
  revert h; cases a <;> cases b <;> cases c <;> cases d <;> decide

/-- What `fesetround` leaves alone. -/
def X86Regs.Same (w w' : X86Regs) : Prop :=
  w.x87 &&& ~~~0xc00#16 = w'.x87 &&& ~~~0xc00#16 ∧ w.mxcsr &&& ~~~0x6000#32 = w'.mxcsr &&& ~~~0x6000#32

theorem glibcSet_same (r : BitVec 32) (w : X86Regs) : w.Same (glibcSet r w) := by
  unfold glibcSet
  split
  · exact ⟨rfl, rfl⟩
  · exact ⟨maskWrite_same .., maskWrite_same ..⟩

theorem glibcSet_dir {r : BitVec 32} (h : r &&& ~~~0xc00#32 = 0) (w : X86Regs) (u : FpUnit) :
    (glibcSet r w).dir u = x87Dir (r.getLsbD 11) (r.getLsbD 10) := by
  unfold glibcSet
  rw [if_neg (not_not.2 h)]
  cases u
  · change x87Dir ((maskWrite _ _ _).getLsbD 11) ((maskWrite _ _ _).getLsbD 10) = _
    rw [maskWrite_bit, maskWrite_bit, if_pos (by decide), if_pos (by decide)]
    simp
  · change x87Dir ((maskWrite _ _ _).getLsbD 14) ((maskWrite _ _ _).getLsbD 13) = _
    rw [maskWrite_bit, maskWrite_bit, if_pos (by decide), if_pos (by decide)]
    simp

theorem glibcGet_field (w : X86Regs) : glibcGet w &&& ~~~0xc00#32 = 0 := by
  unfold glibcGet
  rw [BitVec.and_assoc, show ((0xc00 : BitVec 32) &&& ~~~0xc00#32) = 0 by decide]
  exact BitVec.and_zero

theorem glibcGet_dir (w : X86Regs) : x87Dir ((glibcGet w).getLsbD 11) ((glibcGet w).getLsbD 10) = w.dir .x87 := by
  unfold glibcGet X86Regs.dir
  simp

theorem glibc_restore {w w' : X86Regs} (h : w.dir .x87 = w.dir .sse) (hs : w.Same w') : glibcSet (glibcGet w) w' = w := by
  obtain ⟨h1, h2⟩ := x87Dir_inj h
  unfold glibcSet
  rw [if_neg (not_not.2 (glibcGet_field w))]
  have e1 : maskWrite 0xc00 ((glibcGet w).setWidth 16) w'.x87 = w.x87 := by
    apply BitVec.eq_of_getLsbD_eq
    intro i hi
    rw [maskWrite_bit]
    have := congrArg (fun x : BitVec 16 => x.getLsbD i) hs.1
    simp only [BitVec.getLsbD_and, BitVec.getLsbD_not] at this
    unfold glibcGet
    interval_cases i <;> simp_all
  have e2 : maskWrite 0x6000 (glibcGet w <<< 3) w'.mxcsr = w.mxcsr := by
    apply BitVec.eq_of_getLsbD_eq
    intro i hi
    rw [maskWrite_bit]
    have := congrArg (fun x : BitVec 32 => x.getLsbD i) hs.2
    simp only [BitVec.getLsbD_and, BitVec.getLsbD_not] at this
    unfold glibcGet
    interval_cases i <;> simp_all
  rw [e1, e2]

/-- The laws of `fesetround` for either unit: words in which the two directions agree. -/
def glibcX86_laws (u : FpUnit) : CtlLaws (glibcX86 u) where
  valid := fun w : X86Regs => w.dir .x87 = w.dir .sse
  same := X86Regs.Same
  same_refl _ := ⟨rfl, rfl⟩
  same_trans _ _ _ h h' := ⟨h.1.trans h'.1, h.2.trans h'.2⟩
  valid_up w _ := (glibcSet_dir (by decide) w .x87).trans (glibcSet_dir (by decide) w .sse).symm
  valid_down w _ := (glibcSet_dir (by decide) w .x87).trans (glibcSet_dir (by decide) w .sse).symm
  valid_near w _ := (glibcSet_dir (by decide) w .x87).trans (glibcSet_dir (by decide) w .sse).symm
  same_up w _ := glibcSet_same _ w
  same_down w _ := glibcSet_same _ w
  same_near w _ := glibcSet_same _ w
  decode_up w _ := (glibcSet_dir (by decide) w u).trans (by decide)
  decode_down w _ := (glibcSet_dir (by decide) w u).trans (by decide)
  decode_near w _ := (glibcSet_dir (by decide) w u).trans (by decide)
  restore _ _ h hs := glibc_restore h hs

/-- The laws of `fldcw` for the x87 unit. -/
def fldcwX87_laws : CtlLaws (fldcwX86 .x87) where
  valid _ := True
  same := fun w w' : X86Regs => w.mxcsr = w'.mxcsr
  same_refl _ := rfl
  same_trans _ _ _ := Eq.trans
  valid_up _ _ := trivial
  valid_down _ _ := trivial
  valid_near _ _ := trivial
  same_up _ _ := rfl
  same_down _ _ := rfl
  same_near _ _ := rfl
  decode_up _ _ := by simp [fldcwX86, X86Regs.dir, x87Dir]
  decode_down _ _ := by simp [fldcwX86, X86Regs.dir, x87Dir]
  decode_near _ _ := by simp [fldcwX86, X86Regs.dir, x87Dir]
  restore := fun (w w' : X86Regs) _ (h : w.mxcsr = w'.mxcsr) => by
    change (⟨w.x87, w'.mxcsr⟩ : X86Regs) = w
    rw [← h]

/-! ## Units that do not agree -/

theorem glibcSet_congr {r : BitVec 32} (hr : r &&& ~~~0xc00#32 = 0) {w w' : X86Regs} (h : w.Same w') :
    glibcSet r w' = glibcSet r w := by
  unfold glibcSet
  rw [if_neg (not_not.2 hr), if_neg (not_not.2 hr)]
  have e1 : maskWrite 0xc00 (r.setWidth 16) w'.x87 = maskWrite 0xc00 (r.setWidth 16) w.x87 := by
    apply BitVec.eq_of_getLsbD_eq
    intro i hi
    rw [maskWrite_bit, maskWrite_bit]
    have := congrArg (fun x : BitVec 16 => x.getLsbD i) h.1
    simp only [BitVec.getLsbD_and, BitVec.getLsbD_not] at this
    interval_cases i <;> simp_all
  have e2 : maskWrite 0x6000 (r <<< 3) w'.mxcsr = maskWrite 0x6000 (r <<< 3) w.mxcsr := by
    apply BitVec.eq_of_getLsbD_eq
    intro i hi
    rw [maskWrite_bit, maskWrite_bit]
    have := congrArg (fun x : BitVec 32 => x.getLsbD i) h.2
    simp only [BitVec.getLsbD_and, BitVec.getLsbD_not] at this
    interval_cases i <;> simp_all
  rw [e1, e2]

/-- What a scope leaves: the word with the direction of the x87 in both fields. -/
def X86Regs.level (w : X86Regs) : X86Regs := glibcSet (glibcGet w) w

theorem X86Regs.level_dir (w : X86Regs) (u : FpUnit) : w.level.dir u = w.dir .x87 :=
  (glibcSet_dir (glibcGet_field w) w u).trans (glibcGet_dir w)

theorem X86Regs.level_level (w : X86Regs) : w.level.level = w.level :=
  glibc_restore ((w.level_dir _).trans (w.level_dir _).symm) ⟨rfl, rfl⟩

theorem X86Regs.level_same (w : X86Regs) : w.Same w.level := glibcSet_same _ w

theorem X86Regs.level_x87 (w : X86Regs) : w.level.x87 = w.x87 := by
  unfold X86Regs.level glibcSet
  rw [if_neg (not_not.2 (glibcGet_field w))]
  apply BitVec.eq_of_getLsbD_eq
  intro i hi
  rw [maskWrite_bit]
  unfold glibcGet
  interval_cases i <;> simp

/-- Between rounding objects, whatever the registers are. -/
def looseX86 : Inv X86Regs where
  Pre _ := True
  Rel w w' := w' = w ∨ w' = w.level
  refl _ _ := .inl rfl
  trans u v w h h' := by
    rcases h with rfl | rfl
    · exact h'
    · rcases h' with rfl | rfl
      · exact .inr rfl
      · exact .inr u.level_level

/-- The same switches on an imagined machine that saves both registers; only its switches are used. -/
def savingX86 (u : FpUnit) : Ctl := { glibcX86 u with Saved := X86Regs, get := fun w => w, set := fun v _ => v }

def savingX86_laws (u : FpUnit) : CtlLaws (savingX86 u) where
  valid _ := True
  same := X86Regs.Same
  same_refl _ := ⟨rfl, rfl⟩
  same_trans _ _ _ h h' := ⟨h.1.trans h'.1, h.2.trans h'.2⟩
  valid_up _ _ := trivial
  valid_down _ _ := trivial
  valid_near _ _ := trivial
  same_up w _ := glibcSet_same _ w
  same_down w _ := glibcSet_same _ w
  same_near w _ := glibcSet_same _ w
  decode_up w _ := (glibcSet_dir (by decide) w u).trans (by decide)
  decode_down w _ := (glibcSet_dir (by decide) w u).trans (by decide)
  decode_near w _ := (glibcSet_dir (by decide) w u).trans (by decide)
  restore _ _ _ _ := rfl

section
variable {T : Type} [Num T] {u : FpUnit}

theorem keepScope_loose (k : RKind) (A : Arith (M X86Regs) T) {α : Type} {a : M X86Regs α}
    (h : Keep (inner (savingX86_laws u) k) a) :
    Keep looseX86 ((saveState (T := T) (glibcX86 u) (initOf (glibcX86 u) k) A).scope a) := by
  intro s _
  refine ⟨.inr ?_, fun _ _ => trivial⟩
  have hsm : s.cw.Same (initOf (glibcX86 u) k s.cw) := by
    cases k <;> first | exact ⟨rfl, rfl⟩ | exact glibcSet_same 0x800 _
  have hu : k = .opp → (savingX86 u).decode (initOf (glibcX86 u) k s.cw) = .up := by
    rintro rfl; exact (savingX86_laws u).decode_up _ trivial
  have h2 : X86Regs.Same _ _ := (h { s with cw := initOf (glibcX86 u) k s.cw } ⟨trivial, hu⟩).1
  exact glibcSet_congr (glibcGet_field s.cw) ⟨hsm.1.trans h2.1, hsm.2.trans h2.2⟩

theorem scope_loose (k : RKind) (A : Arith (M X86Regs) T) {α : Type} {a : M X86Regs α} {r : Res α}
    (h : Sim (inner (savingX86_laws u) k) a r) :
    Sim looseX86 ((saveState (T := T) (glibcX86 u) (initOf (glibcX86 u) k) A).scope a) r := by
  intro s hs
  have hu : k = .opp → (savingX86 u).decode (initOf (glibcX86 u) k s.cw) = .up := by
    rintro rfl; exact (savingX86_laws u).decode_up _ trivial
  exact ⟨(h { s with cw := initOf (glibcX86 u) k s.cw } ⟨trivial, hu⟩).1, (keepScope_loose k A h.keep s hs).1, fun _ _ => trivial⟩

/-- A configuration on x86 with glibc, both registers being part of the state. -/
def x86Env (u : FpUnit) (k : RKind) (lib : Lib T) (checks : ChkSpec) (ndebug : Bool) : Env T where
  ctl := glibcX86 u
  laws := glibcX86_laws u
  kind := k
  lib := lib
  checks := checks
  ndebug := ndebug

/-- Inside a rounding object. -/
def insideX86 (u : FpUnit) (k : RKind) : Inv X86Regs := inner (savingX86_laws u) k

theorem lvl_loose (k : RKind) (lib : Lib T) (chk : ChkSpec) (nd : Bool) (hk : k ≠ .exact) :
    Lvl (x86Env u k lib chk nd) looseX86 (insideX86 u k) (x86Env u k lib chk nd).P := by
  have ha := arithOf_sim (L := savingX86_laws u) k lib (fun h => absurd h hk)
  cases k with
  | exact => exact absurd rfl hk
  | std => exact {
      sim := {
        chk := rfl
        scope := scope_loose .std _
        scopeU := fun h => h
        rnd := ha
        unp := ha
        cur := fun f g h => evalIn_bind (c := glibcX86 u) f g _ h
        curJ := fun f g h => evalIn_bind (c := glibcX86 u) f g _ h }
      cur := fun _ => rfl
      convDown := fun v _ => dn_sim (c := savingX86 u) _
      convUp := fun v _ => upw_sim (c := savingX86 u) _
      convDownU := fun v _ => dn_sim (c := savingX86 u) _
      convUpU := fun v _ => upw_sim (c := savingX86 u) _
      keepDown := fun v => (dn_sim (c := savingX86 u) _).keep
      keepUp := fun v => (upw_sim (c := savingX86 u) _).keep
      keepDownU := fun v => (dn_sim (c := savingX86 u) _).keep
      keepUpU := fun v => (upw_sim (c := savingX86 u) _).keep
      keepScope := keepScope_loose .std _
      keepScopeU := fun h => h }
  | opp => exact {
      sim := {
        chk := rfl
        scope := scope_loose .opp _
        scopeU := fun h => h
        rnd := ha
        unp := ha
        cur := fun f g h => evalIn_bind (c := glibcX86 u) f g _ h
        curJ := fun f g h => evalIn_bind (c := glibcX86 u) f g _ h }
      cur := fun _ => rfl
      convDown := fun v _ => upNeg_sim (c := savingX86 u) _
      convUp := fun v _ => evalIn_up (c := savingX86 u) _
      convDownU := fun v _ => upNeg_sim (c := savingX86 u) _
      convUpU := fun v _ => evalIn_up (c := savingX86 u) _
      keepDown := fun v => (upNeg_sim (c := savingX86 u) _).keep
      keepUp := fun v => (evalIn_up (c := savingX86 u) _).keep
      keepDownU := fun v => (upNeg_sim (c := savingX86 u) _).keep
      keepUpU := fun v => (evalIn_up (c := savingX86 u) _).keep
      keepScope := keepScope_loose .opp _
      keepScopeU := fun h => h }
end

end BI
