import Verif.Model.Register
import Verif.Spec.Register
import Verif.Proofs.Conv
/-! # Rounding twice in the same directed mode -/

set_option linter.unusedSectionVars false

namespace BI
variable {f g : Fmt}

/-- A number is determined by its value and its sign. -/
theorem fl_ext {a b : Fl f} {e : EReal} (ha : val a = some e) (hb : val b = some e) (h : a.isNeg = b.isNeg) : a = b := by
  cases a with
  | nan => cases ha
  | inf s => cases b with
    | nan => cases hb
    | inf t => rw [show s = t from h]
    | zero t => cases s <;> cases ha <;> cases hb
    | nz q hq => cases s <;> cases ha <;> cases hb
  | zero s => cases b with
    | nan => cases hb
    | inf t => cases t <;> cases ha <;> cases hb
    | zero t => rw [show s = t from h]
    | nz q hq =>
      have h1 : (0 : EReal) = ((q : ℝ) : EReal) := Option.some.inj (ha.trans hb.symm)
      exact absurd (by exact_mod_cast h1.symm) hq.1
  | nz q hq =>
    obtain ⟨h', rfl⟩ := fl_val_nz (a := b) hq.1 (hb.trans ha.symm)
    rfl

/-- The sign of a rounded number. -/
theorem rnd_isNeg (r : RMode) (s : Bool) {x : ℝ} (hx : x ≠ 0) : (rnd f r s x).isNeg = decide (x < 0) := by
  have hlo : 0 < x → 0 ≤ roundUnb f r x := fun h => le_roundUnb r hx rep_zero (by simpa using h.le)
  have hup : x < 0 → roundUnb f r x ≤ 0 := fun h => roundUnb_le r hx rep_zero (by simpa using h.le)
  have hm := maxFin_pos f
  unfold rnd
  rw [if_neg hx]
  rcases lt_or_gt_of_ne hx with h | h
  · have h' := hup h
    split_ifs with h0 h1 h2
    · rfl
    · have : roundUnb f r x < 0 := lt_of_le_of_ne h' h0
      simp [Fl.isNeg, this, h]
    · cases r <;> simp [overflow, Fl.max, Fl.isNeg, h, hm]
    · exact absurd (h'.trans hm.le) h1
  · have h' := hlo h
    have hnx : ¬ x < 0 := not_lt.2 h.le
    split_ifs with h0 h1 h2
    · rfl
    · simp [Fl.isNeg, hnx, h']
    · exact absurd (by linarith) h2
    · cases r <;> simp [overflow, Fl.max, Fl.isNeg, hnx, hm.le, h.le]

theorem rnd_isNeg_zero (r : RMode) (s : Bool) : (rnd f r s (0 : ℝ)).isNeg = s := by
  unfold rnd; simp [Fl.isNeg]

theorem convert_isNeg (r : RMode) (a : Fl f) : (a.convert g r).isNeg = a.isNeg := by
  cases a with
  | nan => rfl
  | inf s => rfl
  | zero s => rfl
  | nz q h =>
    change (rnd g r _ q).isNeg = _
    rw [← rnd_cast, rnd_isNeg r _ (by exact_mod_cast h.1)]
    simp [Fl.isNeg]

theorem Nested.representable (h : Nested f g) {e : EReal} (he : Representable (Fl f) e) : Representable (Fl g) e := by
  rcases (representable_iff e).1 he with rfl | rfl | ⟨q, hq, rfl⟩
  · exact ⟨.inf true, rfl⟩
  · exact ⟨.inf false, rfl⟩
  · exact (representable_iff _).2 (.inr (.inr ⟨q, h q hq, rfl⟩))

/-- Rounding to `g` and then to `f`, in the same directed mode, is rounding to `f`. -/
theorem rnd_twice (h : Nested f g) {r : RMode} (hr : r.Directed) (s : Bool) (x : ℝ) :
    (rnd g r s x).convert f r = rnd f r s x := by
  have hsign : ((rnd g r s x).convert f r).isNeg = (rnd f r s x).isNeg := by
    rw [convert_isNeg]
    by_cases hx : x = 0
    · subst hx; rw [rnd_isNeg_zero, rnd_isNeg_zero]
    · rw [rnd_isNeg r s hx, rnd_isNeg r s hx]
  obtain ⟨zg, vg, sg⟩ := rnd_rounds (f := g) r s x
  obtain ⟨z2, v2, s2⟩ := convert_rounds (g := f) r vg
  obtain ⟨zf, vf, sf⟩ := rnd_rounds (f := f) r s x
  have r2 : Representable (Fl f) z2 := ⟨_, v2⟩
  have rf : Representable (Fl f) zf := ⟨_, vf⟩
  have : z2 = zf := by
    rcases hr with rfl | rfl
    · exact le_antisymm (sf.lo z2 r2 ((s2.down rfl).trans (sg.down rfl)))
        (s2.lo zf rf (sg.lo zf (h.representable rf) (sf.down rfl)))
    · exact le_antisymm (s2.up zf rf (sg.up zf (h.representable rf) (sf.upw rfl)))
        (sf.up z2 r2 ((sg.upw rfl).trans (s2.upw rfl)))
  subst this
  exact fl_ext v2 vf hsign

theorem rnd_twice_rat (h : Nested f g) {r : RMode} (hr : r.Directed) (s : Bool) (x : ℚ) :
    (rnd g r s x).convert f r = rnd f r s x := by
  rw [← rnd_cast, ← rnd_cast (f := f)]; exact rnd_twice h hr s x

theorem convert_nz (h : Nested f g) (r : RMode) {q : ℚ} (hq : q ≠ 0 ∧ Rep f q) :
    (Fl.nz q hq : Fl f).convert g r = .nz q ⟨hq.1, h q hq.2⟩ := by
  obtain ⟨_, e⟩ := fl_val_nz hq.1 (rnd_exact (f := g) r (decide (q < 0)) (h q hq.2))
  exact e

theorem convert_self (r : RMode) (a : Fl f) : a.convert f r = a := by
  cases a with
  | nan => rfl
  | inf s => rfl
  | zero s => rfl
  | nz q hq => exact convert_nz (fun _ h => h) r hq

/-- Loading and storing. -/
theorem convert_back (h : Nested f g) (r : RMode) (a : Fl f) : (a.convert g r).convert f r = a := by
  cases a with
  | nan => rfl
  | inf s => rfl
  | zero s => rfl
  | nz q hq =>
    rw [convert_nz h]
    obtain ⟨_, e⟩ := fl_val_nz hq.1 (rnd_exact (f := f) r (decide (q < 0)) hq.2)
    exact e

theorem convert_neg (h : Nested f g) (r : RMode) (a : Fl f) : (a.convert g r).neg = a.neg.convert g r := by
  cases a with
  | nan => rfl
  | inf s => rfl
  | zero s => rfl
  | nz q hq =>
    rw [convert_nz h]
    exact (convert_nz h r (q := -q) _).symm

theorem add_via (h : Nested f g) {r : RMode} (hr : r.Directed) (a b : Fl f) :
    viaRegister2 g Fl.add r a b = a.add r b := by
  unfold viaRegister2
  cases a with
  | nan => rfl
  | inf s => cases b with
    | nan => rfl
    | inf t => cases s <;> cases t <;> rfl
    | zero t => rfl
    | nz q hq => rw [convert_nz h]; rfl
  | zero s => cases b with
    | nan => rfl
    | inf t => rfl
    | zero t => cases s <;> cases t <;> rfl
    | nz q hq => rw [convert_nz h]; exact convert_self r (Fl.nz q hq)
  | nz p hp =>
    rw [convert_nz h]
    cases b with
    | nan => rfl
    | inf t => rfl
    | zero t => exact convert_self r (Fl.nz p hp)
    | nz q hq => rw [convert_nz h]; exact rnd_twice_rat h hr _ _

theorem sub_via (h : Nested f g) {r : RMode} (hr : r.Directed) (a b : Fl f) :
    viaRegister2 g Fl.sub r a b = a.sub r b := by
  have := add_via h hr a b.neg
  unfold viaRegister2 at this ⊢
  unfold Fl.sub
  rw [convert_neg h, this]

theorem mul_via (h : Nested f g) {r : RMode} (hr : r.Directed) (a b : Fl f) :
    viaRegister2 g Fl.mul r a b = a.mul r b := by
  unfold viaRegister2
  cases a with
  | nan => rfl
  | inf s => cases b with
    | nan => rfl
    | inf t => rfl
    | zero t => rfl
    | nz q hq => rw [convert_nz h]; rfl
  | zero s => cases b with
    | nan => rfl
    | inf t => rfl
    | zero t => rfl
    | nz q hq => rw [convert_nz h]; rfl
  | nz p hp =>
    rw [convert_nz h]
    cases b with
    | nan => rfl
    | inf t => rfl
    | zero t => rfl
    | nz q hq => rw [convert_nz h]; exact rnd_twice_rat h hr _ _

theorem div_via (h : Nested f g) {r : RMode} (hr : r.Directed) (a b : Fl f) :
    viaRegister2 g Fl.div r a b = a.div r b := by
  unfold viaRegister2
  cases a with
  | nan => rfl
  | inf s => cases b with
    | nan => rfl
    | inf t => rfl
    | zero t => rfl
    | nz q hq => rw [convert_nz h]; rfl
  | zero s => cases b with
    | nan => rfl
    | inf t => rfl
    | zero t => rfl
    | nz q hq => rw [convert_nz h]; rfl
  | nz p hp =>
    rw [convert_nz h]
    cases b with
    | nan => rfl
    | inf t => rfl
    | zero t => rfl
    | nz q hq => rw [convert_nz h]; exact rnd_twice_rat h hr _ _

theorem sqrt_via (h : Nested f g) {r : RMode} (hr : r.Directed) (a : Fl f) :
    viaRegister1 g Fl.sqrt r a = a.sqrt r := by
  unfold viaRegister1
  cases a with
  | nan => rfl
  | inf s => cases s <;> rfl
  | zero s => rfl
  | nz q hq =>
    rw [convert_nz h]
    unfold Fl.sqrt
    dsimp only
    split_ifs with h0
    · rfl
    · have hq0 : 0 < q := lt_of_le_of_ne (not_lt.1 h0) hq.1.symm
      rw [rnd_sqrtApprox r false hq0, rnd_sqrtApprox r false hq0]
      exact rnd_twice h hr _ _

theorem rint_via (h : Nested f g) {r : RMode} (hr : r.Directed) (a : Fl f) :
    viaRegister1 g Fl.rint r a = a.rint r := by
  unfold viaRegister1
  cases a with
  | nan => rfl
  | inf s => cases s <;> rfl
  | zero s => rfl
  | nz q hq => rw [convert_nz h]; exact rnd_twice_rat h hr _ _

theorem nested_of (hp : f.p ≤ g.p) (hmin : g.emin ≤ f.emin) (hmax : f.emax ≤ g.emax) : Nested f g := by
  rintro q ⟨m, e, h1, h2, h3, rfl⟩
  exact ⟨m, e, h1.trans_le (pow_le_pow_right₀ (by norm_num) hp), hmin.trans h2, h3.trans hmax, rfl⟩

end BI
