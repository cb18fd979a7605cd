import Verif.Model.Conv
import Verif.Spec.Conv
import Verif.Proofs.ClientSim
import Verif.Proofs.Bridge
import Verif.Proofs.Empty
import Verif.Proofs.Instances
/-! # Conversions and constructors -/

set_option linter.unusedSectionVars false

namespace BI
open Set

section
variable {T : Type} [Num T] [Val T] [NumLaws T] {V : Env T} {D U : EReal → EReal → Prop}

/-- A policy that neither sees NaN nor throws on it answers that nothing is NaN. -/
theorem isNan_blind (sp : ChkSpec) (nd : Bool) (h : sp.seesNan = false) (h' : sp.catchesNan = false) (t : T) :
    (sp.eval T nd).isNan t = .ok false := by
  induction sp with
  | base => cases h
  | noEmpty c ih => exact ih h h'
  | noNan c ih => rfl
  | catchNan c ih =>
    have h0 : c.seesNan = false ∧ c.catchesNan = false := by simpa [ChkSpec.catchesNan] using h'
    change (do if ← (c.eval T nd).isNan t then .error .invalidNumber
               pure false : Res Bool) = _
    rw [ih h0.1 h0.2]; rfl

/-- A policy that does not throw on NaN answers. -/
theorem isNan_answers (sp : ChkSpec) (nd : Bool) (h : sp.catchesNan = false) (t : T) :
    ∃ b, (sp.eval T nd).isNan t = .ok b := by
  cases hs : sp.seesNan
  · exact ⟨_, isNan_blind sp nd hs h t⟩
  · exact ⟨_, isNan_sees sp nd hs t⟩

theorem upNeg_post (hDU : DU T D U) (hn : ∀ a : T, Num.neg a ≠ none) {op : RMode → Option T} {e : EReal}
    (h : ∃ c z, op .up = some c ∧ val c = some z ∧ U z (-e)) :
    Post True (negRes (op .up)) fun c => ∃ z, val c = some z ∧ D z e := by
  obtain ⟨c, z, h1, h2, h3⟩ := h
  obtain ⟨b, hb⟩ := Option.ne_none_iff_exists'.1 (hn c)
  have : negRes (op .up) = .ok b := by rw [h1]; change ofOpt (Num.neg c) = _; rw [hb]; rfl
  rw [this]
  have := hDU.dual h3 hn
  rw [neg_neg] at this
  exact ⟨-z, by rw [NumLaws.neg c b hb, h2]; rfl, this⟩

theorem Src.Denotes.down (hDU : DU T D U) (hn : ∀ a : T, Num.neg a ≠ none) {v : Src T} {e : EReal}
    (h : v.Denotes V D U e) : Post True (V.B.convDown v) fun c => ∃ z, val c = some z ∧ D z e := by
  obtain ⟨c, L, k, lib, chk, nd⟩ := V
  rcases h with ⟨hk, h1, h2⟩ | ⟨hk, h⟩
  · cases k with
    | exact => exact absurd rfl hk
    | std => exact approx_down h1
    | opp => exact upNeg_post hDU hn (h2 rfl)
  · dsimp only at hk; subst hk
    exact exact_post hDU.D_exact h

theorem Src.Denotes.up (hDU : DU T D U) {v : Src T} {e : EReal}
    (h : v.Denotes V D U e) : Post True (V.B.convUp v) fun c => ∃ z, val c = some z ∧ U z e := by
  obtain ⟨c, L, k, lib, chk, nd⟩ := V
  rcases h with ⟨hk, h1, h2⟩ | ⟨hk, h⟩
  · cases k with
    | exact => exact absurd rfl hk
    | std => exact approx_up h1
    | opp => exact approx_up h1
  · dsimp only at hk; subst hk
    exact exact_post hDU.U_exact h

theorem Src.Denotes.conv {v : Src T} {e : EReal} (h : v.Denotes V D U e) (r : RMode) :
    ∃ c z, v.conv r = some c ∧ val c = some z := by
  rcases h with ⟨_, h1, _⟩ | ⟨_, c, h1, h2⟩
  · obtain ⟨c, z, k1, k2, _⟩ := h1 r; exact ⟨c, z, k1, k2⟩
  · exact ⟨c, e, h1 r, h2⟩

theorem Src.Denotes.notNan {v : Src T} {e : EReal} (h : v.Denotes V D U e) (r : RMode) :
    (ofOpt (v.conv r) >>= V.C.isNan) = .ok false := by
  obtain ⟨c, z, h1, h2⟩ := h.conv r
  rw [h1]; exact V.chk.isNan c z h2

theorem Src.Denotes.free {v : Src T} {e : EReal} (h : v.Denotes V D U e) : V.SrcFree v := by
  refine ⟨fun r r' => by rw [h.notNan, h.notNan], fun hk r r' => ?_⟩
  rcases h with ⟨hk', _⟩ | ⟨_, c, h1, _⟩
  · exact absurd hk hk'
  · rw [h1, h1]

theorem Src.Denotes.isNan {v : Src T} {e : EReal} (h : v.Denotes V D U e) {β : Type} (k : Bool → Res β) :
    (V.pp.cur v.conv >>= fun t => V.C.isNan t >>= k) = k false := by
  obtain ⟨c, z, h1, h2⟩ := h.conv .near
  have : V.pp.cur v.conv = .ok c := by change ofOpt (v.conv .near) = _; rw [h1]; rfl
  rw [this]
  change (V.C.isNan c >>= k) = _
  rw [V.chk.isNan c z h2]; rfl

theorem Env.Ok.neg (h : V.Ok D U) (a : T) : Num.neg a ≠ none := by
  rcases h with ⟨_, h⟩ | ⟨_, h, _⟩ <;> exact h.neg a

theorem conv2_post (hDU : DU T D U) (hn : ∀ a : T, Num.neg a ≠ none) {l u : Src T} {p q : EReal}
    (hl : l.Denotes V D U p) (hu : u.Denotes V D U q) (hne : (RI p q).Nonempty) :
    Post True (do let l ← V.B.convDown l; let u ← V.B.convUp u; pure (⟨l, u⟩ : Itv T)) (Bnd D U (RI p q)) := by
  obtain ⟨r, hr⟩ := hne
  refine (hl.down hDU hn).bind fun a ⟨z, hz, dz⟩ => (hu.up hDU).bind fun b ⟨w, hw, dw⟩ => Post.pure ?_
  exact ⟨z, w, p, q, hz, hw, isGLB_of (fun _ h => h.1) (lower_mem_closure hr),
    isLUB_of (fun _ h => h.2) (upper_mem_closure hr), dz, dw⟩

theorem ctorSrc_post (hDU : DU T D U) (hn : ∀ a : T, Num.neg a ≠ none) {v : Src T} {r : ℝ}
    (hv : v.Denotes V D U r) : Post True (ctorSrc V.pp v) (Bnd D U {r}) := by
  have e : RI (r : EReal) r = {r} := by
    ext s; simp only [RI, mem_ofPred_eq, mem_singleton_iff, EReal.coe_le_coe_iff]
    exact ⟨fun h => le_antisymm h.2 h.1, fun h => by subst h; exact ⟨le_rfl, le_rfl⟩⟩
  unfold ctorSrc
  change Post True (V.pp.cur v.conv >>= fun t => V.C.isNan t >>= _) _
  rw [hv.isNan, ← e]
  exact conv2_post hDU hn hv hv ⟨r, le_rfl, le_rfl⟩

theorem ctorSrc2_post (hDU : DU T D U) (hn : ∀ a : T, Num.neg a ≠ none) {l u : Src T} {p q : EReal}
    (hl : l.Denotes V D U p) (hu : u.Denotes V D U q) (hne : (RI p q).Nonempty) :
    Post True (ctorSrc2 V.pp l u true) (Bnd D U (RI p q)) := by
  unfold ctorSrc2
  change Post True (V.pp.cur l.conv >>= fun t => V.C.isNan t >>= _) _
  rw [hl.isNan]
  change Post True (V.pp.cur u.conv >>= fun t => V.C.isNan t >>= _) _
  rw [hu.isNan]
  exact conv2_post hDU hn hl hu hne

theorem ctorSrc2_empty {l u : Src T} {p q : EReal} (hl : l.Denotes V D U p) (hu : u.Denotes V D U q) :
    ctorSrc2 V.pp l u false = emptyI V.C := by
  unfold ctorSrc2
  change (V.pp.cur l.conv >>= fun t => V.C.isNan t >>= _) = _
  rw [hl.isNan]
  change (V.pp.cur u.conv >>= fun t => V.C.isNan t >>= _) = _
  rw [hu.isNan]
  rfl
end

/-! ## Sources -/

section
variable {f g : Fmt}

theorem convert_rounds (r : RMode) {a : Fl f} {e : EReal} (h : val a = some e) : Rounds g r e (a.convert g r) := by
  cases a with
  | nan => cases h
  | inf s => exact Rounds.exact (by cases s <;> exact h)
  | zero s => exact Rounds.exact h
  | nz q hq => cases h; exact rnd_rounds_rat r _ q

theorem Approx.weaken {T : Type} [Num T] [Val T] {op : RMode → Option T} {e : EReal}
    (h : Approx T (IsRoundDown T) (IsRoundUp T) op e) : Approx T LeB GeB op e := fun r => by
  obtain ⟨c, z, h1, h2, h3, h4⟩ := h r
  exact ⟨c, z, h1, h2, fun h => (h3 h).2.1, fun h => (h4 h).2.1⟩

theorem Approx.upw {T : Type} [Num T] [Val T] {D U : EReal → EReal → Prop} {op : RMode → Option T} {e : EReal}
    (h : Approx T D U op e) : ∃ c z, op .up = some c ∧ val c = some z ∧ U z e := by
  obtain ⟨c, z, h1, h2, _, h4⟩ := h .up
  exact ⟨c, z, h1, h2, h4 rfl⟩

theorem Src.Denotes.weaken {T : Type} [Num T] [Val T] {V : Env T} {v : Src T} {e : EReal}
    (h : v.Denotes V (IsRoundDown T) (IsRoundUp T) e) : v.Denotes V LeB GeB e := by
  rcases h with ⟨hk, h1, h2⟩ | h
  · exact .inl ⟨hk, h1.weaken, fun k => by obtain ⟨c, z, k1, k2, k3⟩ := h2 k; exact ⟨c, z, k1, k2, k3.2.1⟩⟩
  · exact .inr h

/-- A floating-point number of any other format. -/
theorem srcFl_denotes (V : Env (Fl g)) (hk : V.kind ≠ .exact) {a : Fl f} {e : EReal} (h : val a = some e) :
    (srcFl a : Src (Fl g)).Denotes V (IsRoundDown (Fl g)) (IsRoundUp (Fl g)) e :=
  .inl ⟨hk, Rounds.approx (fun _ => rfl) fun r => convert_rounds r h, fun _ =>
    (Rounds.approx (fun _ => rfl) fun r => convert_rounds r (by rw [fl_val_neg, h]; rfl)).upw⟩

theorem ofInt_approx (n : Int) :
    Approx (Fl f) (IsRoundDown (Fl f)) (IsRoundUp (Fl f)) (fun r => Num.ofInt r n) ((n : ℝ) : EReal) :=
  Rounds.approx (g := fun r => Fl.ofInt r n) (fun _ => rfl) fun r => by
    have := rnd_rounds_rat (f := f) r false (n : ℚ)
    rw [Rat.cast_intCast] at this; exact this

/-- A signed integer other than the least one. -/
theorem srcInt_denotes (V : Env (Fl f)) (hk : V.kind ≠ .exact) (w : ℕ) {n : Int} (hn : n ≠ -2 ^ (w - 1)) :
    (srcInt w n : Src (Fl f)).Denotes V (IsRoundDown (Fl f)) (IsRoundUp (Fl f)) ((n : ℝ) : EReal) := by
  refine .inl ⟨hk, ofInt_approx n, fun _ => ?_⟩
  have := ofInt_approx (f := f) (-n)
  push_cast at this
  unfold srcInt
  simp only [if_neg hn]
  exact this.upw

/-- Any integer, for the policy that computes lower bounds by switching to rounding downwards. -/
theorem srcUnsigned_denotes (V : Env (Fl f)) (hk : V.kind = .std) (w : ℕ) (n : Int) :
    (srcUnsigned w n : Src (Fl f)).Denotes V (IsRoundDown (Fl f)) (IsRoundUp (Fl f)) ((n : ℝ) : EReal) :=
  .inl ⟨by rw [hk]; decide, ofInt_approx n, fun h => by rw [hk] at h; cases h⟩

/-- An unsigned integer, in general. -/
theorem srcUnsigned_encl (V : Env (Fl f)) (hk : V.kind ≠ .exact) (w : ℕ) (n : Int) (h0 : 0 ≤ n) :
    (srcUnsigned w n : Src (Fl f)).Denotes V LeB GeB ((n : ℝ) : EReal) := by
  refine .inl ⟨hk, (ofInt_approx n).weaken, fun _ => ?_⟩
  obtain ⟨c, z, h1, h2, h3⟩ := (ofInt_approx (f := f) ((-n) % 2 ^ w)).weaken.upw
  refine ⟨c, z, h1, h2, le_trans ?_ h3⟩
  have h4 : -n ≤ (-n) % 2 ^ w := (by omega : -n ≤ 0).trans (Int.emod_nonneg _ (by positivity))
  rw [← EReal.coe_neg]
  exact EReal.coe_le_coe_iff.2 (by exact_mod_cast h4)

theorem srcRat_denotes (V : Env ℚ) (hk : V.kind = .exact) (w : ℕ) (n : Int) (D U : EReal → EReal → Prop) :
    (srcInt w n : Src ℚ).Denotes V D U ((n : ℝ) : EReal) :=
  .inr ⟨hk, (n : ℚ), fun _ => rfl, by change some _ = some _; push_cast; rfl⟩

theorem fl_val_nz {a : Fl f} {q : ℚ} (hq : q ≠ 0) (h : val a = some ((q : ℝ) : EReal)) : ∃ h, a = .nz q h := by
  cases a with
  | nan => cases h
  | inf s => cases s <;> cases h
  | zero s =>
    have h' : (0 : EReal) = ((q : ℝ) : EReal) := Option.some.inj h
    exact absurd (by exact_mod_cast h'.symm) hq
  | nz p hp =>
    have h' : ((p : ℝ) : EReal) = ((q : ℝ) : EReal) := Option.some.inj h
    have : p = q := by exact_mod_cast h'
    subst this; exact ⟨hp, rfl⟩

theorem rnd_rep_eq (r r' : RMode) (s : Bool) {q : ℚ} (hq : Rep f q) : rnd f r s q = rnd f r' s q := by
  by_cases h : q = 0
  · subst h; unfold rnd; simp
  · obtain ⟨_, h1⟩ := fl_val_nz h (rnd_exact r s hq)
    obtain ⟨_, h2⟩ := fl_val_nz h (rnd_exact r' s hq)
    rw [h1, h2]

/-- The integers that a format represents. -/
theorem intIs_fl {n : Int} (h : Rep f n) : IntIs n (Fl.ofInt .near n : Fl f) :=
  ⟨fun r => congrArg some (rnd_rep_eq r .near false h), by
    have := rnd_exact (f := f) .near false h
    rw [Rat.cast_intCast] at this; exact this⟩

theorem intIs_rat (n : Int) : IntIs n (n : ℚ) := ⟨fun _ => rfl, by change some _ = some _; push_cast; rfl⟩
end

end BI
