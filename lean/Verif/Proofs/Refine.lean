import Verif.Spec.Refine
import Verif.Proofs.Isotone
/-! # Evaluation of one expression with numbers of two types -/

set_option linter.unusedSectionVars false

namespace BI.Refine
open Set BI

section
variable {T U : Type} [Val T] [Val U] {φ : T → U}

/-- The same bounds in the finer type. -/
def copy (φ : T → U) (z : Itv T) : Itv U := ⟨φ z.lower, φ z.upper⟩

theorem gamma_copy (hφ : Lossless φ) (z : Itv T) : γ (copy φ z) = γ z := by
  unfold γ copy
  simp only [hφ z.lower, hφ z.upper]

theorem rep (hφ : Lossless φ) {e : EReal} (h : Representable T e) : Representable U e := by
  obtain ⟨a, h⟩ := h; exact ⟨φ a, (hφ a).trans h⟩

/-- Two outcomes: the first encloses `S`, the second encloses the first. -/
def Nest (S : Set ℝ) (r : Res (Itv U)) (r' : Res (Itv T)) : Prop := ∃ z z', r = .ok z ∧ r' = .ok z' ∧ S ⊆ γ z ∧ γ z ⊆ γ z'

/-- The smallest enclosure in the finer type lies in each enclosure in the coarser one. -/
theorem Nest.least (hφ : Lossless φ) {S : Set ℝ} {r : Res (Itv U)} {r' : Res (Itv T)}
    (h : ∃ z, r = .ok z ∧ S ⊆ γ z ∧ ∀ w : Itv U, S ⊆ γ w → γ z ⊆ γ w) (h' : Post True r' fun z => S ⊆ γ z) : Nest S r r' := by
  obtain ⟨z, rfl, h1, h2⟩ := h
  obtain ⟨z', rfl, h3⟩ := h'.ok_of
  exact ⟨z, z', rfl, rfl, h1, (h2 (copy φ z') (h3.trans (gamma_copy hφ z').symm.subset)).trans (gamma_copy hφ z').subset⟩

theorem Nest.exact {S : Set ℝ} {r : Res (Itv U)} {r' : Res (Itv T)} (h : ∃ z, r = .ok z ∧ γ z = S)
    (h' : Post True r' fun z => S ⊆ γ z) : Nest S r r' := by
  obtain ⟨z, rfl, rfl⟩ := h
  obtain ⟨z', rfl, h3⟩ := h'.ok_of
  exact ⟨z, z', rfl, rfl, subset_rfl, h3⟩
end

section
variable {T : Type} [Num T] [Val T] [NumLaws T] {V : Env T}

theorem outcome (hV : V.Directed) (hv : ∃ s : V.State, V.Valid s) {a : M V.ctl.W (Itv T)} {r : Res (Itv T)} {Q : Itv T → Prop}
    (hs : ∀ J, PSim (outer V.laws) J V.P V.B V.C → Sim (outer V.laws) a r) (h : V.Returns a Q) : ∃ z, r = .ok z ∧ Q z := by
  obtain ⟨s, hv⟩ := hv
  obtain ⟨J, hJ⟩ := V.sim hV.kindOk
  obtain ⟨z, h1, -, h2⟩ := h s hv
  exact ⟨z, (hs J hJ s hv).1.symm.trans h1, h2⟩

/-- Least enclosures under another description of the set. -/
theorem least {S S' : Set ℝ} {r : Res (Itv T)} (h : ∃ z, r = .ok z ∧ SmallestEnclosure z S') (e : S = S') :
    ∃ z, r = .ok z ∧ S ⊆ γ z ∧ ∀ w : Itv T, S ⊆ γ w → γ z ⊆ γ w := by
  subst e
  obtain ⟨z, h1, h2, h3⟩ := h
  exact ⟨z, h1, h2, fun w hw => (h3 w hw).1⟩

theorem exact {S S' : Set ℝ} {r : Res (Itv T)} (h : ∃ z, r = .ok z ∧ γ z = S') (e : S = S') :
    ∃ z, r = .ok z ∧ S ⊆ γ z ∧ ∀ w : Itv T, S ⊆ γ w → γ z ⊆ γ w := by
  subst e
  obtain ⟨z, h1, rfl⟩ := h
  exact ⟨z, h1, subset_rfl, fun w hw => hw⟩

/-- An approximation by a number of the type that does not cross zero. -/
def LeT (T : Type) [Val T] (z e : EReal) : Prop := Representable T z ∧ LeS z e
def GeT (T : Type) [Val T] (z e : EReal) : Prop := Representable T z ∧ GeS z e

theorem dirLaws {tot : Prop} {B : Arith Res T} (h : DirLaws tot LeS GeS B) : DirLaws tot (LeT T) (GeT T) B where
  D_min {z e z' e'} h1 h2 := ⟨by rcases min_choice z z' with k | k <;> rw [k]; exacts [h1.1, h2.1], h.D_min h1.2 h2.2⟩
  U_max {z e z' e'} h1 h2 := ⟨by rcases max_choice z z' with k | k <;> rw [k]; exacts [h1.1, h2.1], h.U_max h1.2 h2.2⟩
  D_exact a e ha := ⟨⟨a, ha⟩, h.D_exact a e ha⟩
  U_exact a e ha := ⟨⟨a, ha⟩, h.U_exact a e ha⟩
  neg := h.neg
  addDown a b x y ha hb ok := (h.addDown a b x y ha hb ok).mono fun c ⟨z, hz, k⟩ => ⟨z, hz, ⟨c, hz⟩, k⟩
  addUp a b x y ha hb ok := (h.addUp a b x y ha hb ok).mono fun c ⟨z, hz, k⟩ => ⟨z, hz, ⟨c, hz⟩, k⟩
  subDown a b x y ha hb ok := (h.subDown a b x y ha hb ok).mono fun c ⟨z, hz, k⟩ => ⟨z, hz, ⟨c, hz⟩, k⟩
  subUp a b x y ha hb ok := (h.subUp a b x y ha hb ok).mono fun c ⟨z, hz, k⟩ => ⟨z, hz, ⟨c, hz⟩, k⟩
  mulDown a b x y ha hb ok := (h.mulDown a b x y ha hb ok).mono fun c ⟨z, hz, k⟩ => ⟨z, hz, ⟨c, hz⟩, k⟩
  mulUp a b x y ha hb ok := (h.mulUp a b x y ha hb ok).mono fun c ⟨z, hz, k⟩ => ⟨z, hz, ⟨c, hz⟩, k⟩
  D_le h := h.2.1
  U_ge h := h.2.1

/-- What `pow(x, k)` returns if rounding only keeps the side of zero; compare `PowRes`. -/
def PowRes (k : ℤ) (a b : EReal) (z : Itv T) : Prop :=
  (k = 0 → val z.lower = some 1 ∧ val z.upper = some 1) ∧
  (0 < k → ∃ l u, val z.lower = some l ∧ val z.upper = some u ∧ PowLo (LeT T) (GeT T) k.toNat a b l ∧ PowHi (LeT T) (GeT T) k.toNat a b u) ∧
  (k < 0 → ∃ p : Itv T, ∃ l u, val p.lower = some l ∧ val p.upper = some u ∧ PowLo (LeT T) (GeT T) (-k).toNat a b l ∧
    PowHi (LeT T) (GeT T) (-k).toNat a b u ∧ quot {1} (γ p) ⊆ γ z)

theorem powI_res {tot : Prop} {B : Arith Res T} {C : Checking T} {x : Itv T} {a b : EReal} (hA' : DirLaws tot LeS GeS B)
    (hV : DivLaws tot LeS GeS B) (hC : ChkLaws C) (hx : Has x a b) {k : ℤ} (hk : k ≠ intMin) (hI : k < 0 → InfLaws C)
    (h0 : k ≤ 0 → ∃ r ∈ γ x, r ≠ 0) : Post tot (powI (purePolicies B C) x k) (PowRes k a b) := by
  have hA := dirLaws hA'
  unfold powI
  rw [pure_chk, res_if_false (hx.test hC)]
  by_cases hneg : k < 0
  · rw [if_pos hneg, if_neg hk]
    have hn : 0 < (-k).toNat := by omega
    refine ((powNat_chain hA (fun h => h.2) (fun h => h.2) hC hx hn).and (powNat_post hA' hC hx hn)).bind fun p hp => ?_
    obtain ⟨⟨l, u, h1, h2, h3, h4⟩, hp, -⟩ := hp
    obtain ⟨r, hr, hr0⟩ := h0 hneg.le
    obtain ⟨c, d, ix⟩ := has_of_mem (hp r hr)
    have hne : ¬ (c = 0 ∧ d = 0) := fun h => hr0 (eq_zero_of_pow_eq_zero ((zero_bounds ix).1 h (hp r hr)))
    rw [multInv_eq hC ix]
    refine (divTI_post hA'.op hV (hI hneg) hC (r := 1) val_one ix hne).mono fun z hz => ⟨fun h => by omega, fun h => by omega, fun _ => ?_⟩
    exact ⟨p, l, u, h1, h2, h3, h4, hz.encl hA'.D_le hA'.U_ge⟩
  · rw [if_neg hneg]
    obtain ⟨n, rfl⟩ : ∃ n : ℕ, k = n := ⟨k.toNat, by omega⟩
    rcases Nat.eq_zero_or_pos n with rfl | hn
    · change Post tot (powNat (purePolicies B C) x 0) _
      rw [powNat_zero hC hx fun h => (by
        obtain ⟨r, hr, hr0⟩ := h0 le_rfl
        exact hr0 ((zero_bounds hx).1 h hr))]
      exact ⟨fun _ => ⟨val_one, val_one⟩, fun h => absurd h (by simp), fun h => absurd h (by simp)⟩
    · change Post tot (powNat (purePolicies B C) x n) _
      exact (powNat_chain hA (fun h => h.2) (fun h => h.2) hC hx hn).mono fun z hz =>
        ⟨fun h => by omega, fun _ => by simpa using hz, fun h => by omega⟩
end

section
variable {T U : Type} [Num T] [Val T] [NumLaws T] [Num U] [Val U] [NumLaws U] {φ : T → U} {V : Env T} {W : Env U}
  {x y : Itv T} {x' y' : Itv U} {t : T}

omit [Num T] [NumLaws T] [Num U] [NumLaws U] in
theorem has_sub {a b a' b' : EReal} (h : Has x' a' b') (k : Has x a b) (hs : γ x' ⊆ γ x) : a ≤ a' ∧ b' ≤ b := by
  have h3 : IsGLB (E (γ x')) a' := isGLB_of (fun r hr => h.lb hr) h.lower_cl
  have h4 : IsLUB (E (γ x')) b' := isLUB_of (fun r hr => h.ub hr) h.upper_cl
  exact ⟨h3.2 (by rintro _ ⟨r, hr, rfl⟩; exact k.lb (hs hr)), h4.2 (by rintro _ ⟨r, hr, rfl⟩; exact k.ub (hs hr))⟩

omit [Num T] [NumLaws T] [Num U] [NumLaws U] in
theorem gamma_le {z : Itv U} {z' : Itv T} {l u l' u' : EReal} (h1 : val z.lower = some l) (h2 : val z.upper = some u)
    (h3 : val z'.lower = some l') (h4 : val z'.upper = some u') (h : l' ≤ l) (h' : u ≤ u') : γ z ⊆ γ z' := by
  rintro r ⟨p, q, k1, k2, k3, k4⟩
  rw [h1] at k1; rw [h2] at k2; cases k1; cases k2
  exact ⟨l', u', h3, h4, h.trans k3, k4.trans h'⟩

theorem rnd_down (hφ : Lossless φ) : Rnd (LeT T) (IsRoundDown U) :=
  ⟨fun h h' hh => h'.2.2 _ (rep hφ h.1) (h.2.1.trans hh), fun h h0 => h.2.2 h0, fun h h0 => h.leS.2 h0⟩

theorem rnd_up (hφ : Lossless φ) : Rnd (IsRoundUp U) (GeT T) :=
  ⟨fun h h' hh => h.2.2 _ (rep hφ h'.1) (hh.trans h'.2.1), fun h h0 => h0.trans h.2.1, fun h h0 => h0.trans h.2.1⟩

theorem PowRes.mono (hφ : Lossless φ) {k : ℤ} {z' : Itv U} {z : Itv T} {a b a' b' : EReal} (h : BI.PowRes k a' b' z') (h' : PowRes k a b z)
    (hx : Has x' a' b') (hx' : Has x a b) (hxx : γ x' ⊆ γ x) : γ z' ⊆ γ z := by
  obtain ⟨ha, hb⟩ := has_sub hx hx' hxx
  have d := rnd_down (T := T) hφ
  have u := rnd_up (T := T) hφ
  rcases lt_trichotomy k 0 with h0 | h0 | h0
  · obtain ⟨p, l, u, h1, h2, h3, h4, h5⟩ := h.2.2 h0
    obtain ⟨p', l', u', h1', h2', h3', h4', h5'⟩ := h'.2.2 h0
    have hg := gamma_le h1 h2 h1' h2' (h3.mono d (rnd_up hφ) h3' hx.le hx'.le ha hb) (h4.mono d (rnd_up hφ) h4' hx.le ha hb)
    refine ((h5.2 (copy φ z) ?_).1).trans (gamma_copy hφ z).subset
    rw [gamma_copy hφ]
    exact fun q ⟨r, hr, s, hs, h⟩ => h5' ⟨r, hr, s, hg hs, h⟩
  · exact gamma_le (h.1 h0).1 (h.1 h0).2 (h'.1 h0).1 (h'.1 h0).2 le_rfl le_rfl
  · obtain ⟨l, u, h1, h2, h3, h4⟩ := h.2.1 h0
    obtain ⟨l', u', h1', h2', h3', h4'⟩ := h'.2.1 h0
    exact gamma_le h1 h2 h1' h2' (h3.mono d (rnd_up hφ) h3' hx.le hx'.le ha hb) (h4.mono d (rnd_up hφ) h4' hx.le ha hb)

variable (hφ : Lossless φ) (hv : ∃ s : W.State, W.Valid s) (hV : V.Directed) (hW : W.Tight)
include hφ hv hV hW

theorem UnOp.I_nest (o : UnOp) (hi : o = .inv → InfBase T) (hi' : o = .inv → InfBase U) (hS : o = .sqrt → V.SqrtOk LeB GeB)
    (hS' : o = .sqrt → W.SqrtOk (IsRoundDown U) (IsRoundUp U)) (h : ∃ a ∈ γ x', ∃ r, o.Rel a r) (hxx : γ x' ⊆ γ x) :
    Nest {r | ∃ a ∈ γ x', o.Rel a r} (o.I W.pp x') (o.I V.pp x) := by
  obtain ⟨a, ha, r, hr⟩ := h
  have hx' : (γ x').Nonempty := ⟨a, ha⟩
  have hD := hW.directed
  refine .least hφ ?_ ((UnOp.I_post hV o hi hS ⟨a, hxx ha, r, hr⟩).mono fun z hz r ⟨a, ha, h⟩ => hz a (hxx ha) r h)
  have out : ∀ {S : Set ℝ} {h : W.Returns (o.I W.P x') fun z => SmallestEnclosure z S}, ∃ z, o.I W.pp x' = .ok z ∧ SmallestEnclosure z S :=
    fun {S h} => outcome hD hv (fun _ h => UnOp.I_sim h o x') h
  cases o with
  | pos => exact exact ⟨x', rfl, rfl⟩ (by ext r; exact ⟨fun ⟨a, ha, h⟩ => by rw [show r = a from h]; exact ha, fun h => ⟨r, h, rfl⟩⟩)
  | neg =>
    refine exact (C02_neg W hD.neg hx') ?_
    ext r; simp only [UnOp.Rel, mem_ofPred_eq, eq_comm]
  | abs =>
    refine least (C12_abs W hD.neg hx') ?_
    ext r; simp only [UnOp.Rel, mem_ofPred_eq, eq_comm]
  | square =>
    refine least (out (h := C12_square W hW hx')) ?_
    ext r; simp only [UnOp.Rel, mem_ofPred_eq, eq_comm]
  | sqrt =>
    refine least (out (h := C12_sqrt W hW (hS' rfl) ⟨a, ha, hr.1⟩)) ?_
    ext r; simp only [UnOp.Rel, mem_ofPred_eq, eq_comm, and_assoc]
  | inv =>
    refine least (out (h := C12_inverse W hW (hi' rfl) ⟨a, ha, hr.1⟩)) ?_
    ext r; simp [UnOp.Rel]

theorem BinOp.II_nest (o : BinOp) (hi : o = .div → InfBase T) (hi' : o = .div → InfBase U) (h : ∃ a ∈ γ x', ∃ b ∈ γ y', ∃ r, o.Rel a b r)
    (hxx : γ x' ⊆ γ x) (hyy : γ y' ⊆ γ y) :
    Nest {r | ∃ a ∈ γ x', ∃ b ∈ γ y', o.Rel a b r} (o.II W.pp x' y') (o.II V.pp x y) := by
  obtain ⟨a, ha, b, hb, r, hr⟩ := h
  have hx' : (γ x').Nonempty := ⟨a, ha⟩
  have hy' : (γ y').Nonempty := ⟨b, hb⟩
  have hD := hW.directed
  have post : Post True (o.II V.pp x y) fun z => {r | ∃ a ∈ γ x', ∃ b ∈ γ y', o.Rel a b r} ⊆ γ z :=
    (BinOp.II_post hV o hi ⟨a, hxx ha, b, hyy hb, r, hr⟩).mono fun z hz r ⟨a, ha, b, hb, h⟩ => hz a (hxx ha) b (hyy hb) r h
  have out : ∀ {S : Set ℝ} {h : W.Returns (o.II W.P x' y') fun z => SmallestEnclosure z S},
      ∃ z, o.II W.pp x' y' = .ok z ∧ SmallestEnclosure z S :=
    fun {S h} => outcome hD hv (fun _ h => BinOp.II_sim h o x' y') h
  cases o with
  | add =>
    refine .least hφ (least (out (h := C12_add W hW hx' hy')) ?_) post
    ext r; simp only [BinOp.Rel, mem_ofPred_eq, eq_comm]
  | sub =>
    refine .least hφ (least (out (h := C12_sub W hW hx' hy')) ?_) post
    ext r; simp only [BinOp.Rel, mem_ofPred_eq, eq_comm]
  | mul =>
    refine .least hφ (least (out (h := C12_mul W hW hx' hy')) ?_) post
    ext r; simp only [BinOp.Rel, mem_ofPred_eq, eq_comm]
  | div =>
    by_cases hg : (∃ a ∈ γ x', a < 0) ∧ val x'.upper = some 0 ∧ (val y'.lower = some 0 ∨ val y'.upper = some 0)
    · obtain ⟨z, h1, h2⟩ := outcome hD hv (fun _ h => BinOp.II_sim h .div x' y') (C52_gap W hD (hi' rfl) hg.1 hg.2.1 ⟨b, hb, hr.1⟩ hg.2.2)
      -- then the result in the coarser type is the whole line
      obtain ⟨p, q, ix⟩ := has_of_mem (hxx ha)
      obtain ⟨p', q', ix'⟩ := has_of_mem ha
      obtain ⟨c, d, iy⟩ := has_of_mem (hyy hb)
      obtain ⟨c', d', iy'⟩ := has_of_mem hb
      obtain ⟨h3, h4⟩ := has_sub ix' ix hxx
      obtain ⟨h5, h6⟩ := has_sub iy' iy hyy
      have hq : q' = 0 := by have := ix'.up; rw [hg.2.1] at this; cases this; rfl
      have hcd : c' ≤ 0 ∧ 0 ≤ d' := by
        rcases hg.2.2 with h | h
        · rw [iy'.lo] at h; cases h; exact ⟨le_rfl, iy'.le⟩
        · rw [iy'.up] at h; cases h; exact ⟨iy'.le, le_rfl⟩
      have hw : divII (purePolicies V.B V.C) x y = wholeI V.C :=
        divII_straddle V.chk ix iy (fun h => hr.1 ((zero_bounds iy).1 h (hyy hb))) (h3.trans_lt (neg_lower ix' hg.1)) (hq ▸ h4)
          ⟨h5.trans hcd.1, hcd.2.trans h6⟩
      obtain ⟨z', h7, h8⟩ := (whole_encl (V.infLaws (hi rfl)) (S := univ)).ok_of
      exact ⟨z, z', h1, hw.trans h7, h2 ▸ subset_univ _, (subset_univ _).trans h8⟩
    · exact .least hφ (least (out (h := C52_div_partial W hW (hi' rfl) hx' ⟨b, hb, hr.1⟩ hg)) rfl) post
  | min =>
    refine .least hφ (exact (C29_min W hx' hy') ?_) post
    ext r; simp only [BinOp.Rel, mem_ofPred_eq, eq_comm]
  | max =>
    refine .least hφ (exact (C29_max W hx' hy') ?_) post
    ext r; simp only [BinOp.Rel, mem_ofPred_eq, eq_comm]
  | hull =>
    obtain ⟨z, h1, h2⟩ := C24_hull W (.inl hx') (.inl hy') hx'.inl
    refine .least hφ ⟨z, h1, ?_, fun w hw => h2.2 w (union_subset (fun r hr => hw ⟨r, hr, b, hb, ?_⟩) fun r hr => hw ⟨a, ha, r, hr, ?_⟩)⟩ post
    · rintro r ⟨a, ha, b, hb, h⟩
      exact gamma_between (h2.1 (.inl ha)) (h2.1 (.inr hb)) h.1 h.2
    · exact ⟨min_le_left _ _, le_max_left _ _⟩
    · exact ⟨min_le_right _ _, le_max_right _ _⟩

theorem BinOp.TI_nest (o : BinOp) (hi : o = .div → InfBase T) (hi' : o = .div → InfBase U) {a : ℝ} (ht : val t = some (a : EReal))
    (h : ∃ b ∈ γ y', ∃ r, o.Rel a b r) (hyy : γ y' ⊆ γ y) :
    Nest {r | ∃ b ∈ γ y', o.Rel a b r} (o.TI W.pp (φ t) y') (o.TI V.pp t y) := by
  obtain ⟨b, hb, r, hr⟩ := h
  have hy' : (γ y').Nonempty := ⟨b, hb⟩
  have hD := hW.directed
  have ht' : val (φ t) = some (a : EReal) := (hφ t).trans ht
  refine .least hφ ?_ ((BinOp.TI_post hV o hi ht ⟨b, hyy hb, r, hr⟩).mono fun z hz r ⟨b, hb, h⟩ => hz b (hyy hb) r h)
  have out : ∀ {S : Set ℝ} {h : W.Returns (o.TI W.P (φ t) y') fun z => SmallestEnclosure z S},
      ∃ z, o.TI W.pp (φ t) y' = .ok z ∧ SmallestEnclosure z S :=
    fun {S h} => outcome hD hv (fun _ h => BinOp.TI_sim h o (φ t) y') h
  cases o with
  | add =>
    refine least (out (h := C12_add_num W hW ht' hy')) ?_
    ext r; exact ⟨fun ⟨b, hb, h⟩ => ⟨a, rfl, b, hb, h.symm⟩, fun ⟨_, e, b, hb, h⟩ => ⟨b, hb, by cases e; exact h.symm⟩⟩
  | sub =>
    refine least (out (h := C12_sub_num W hW ht' hy')) ?_
    ext r; exact ⟨fun ⟨b, hb, h⟩ => ⟨a, rfl, b, hb, h.symm⟩, fun ⟨_, e, b, hb, h⟩ => ⟨b, hb, by cases e; exact h.symm⟩⟩
  | mul =>
    refine least (out (h := C12_mul_num W hW ht' hy')) ?_
    ext r; exact ⟨fun ⟨b, hb, h⟩ => ⟨a, rfl, b, hb, h.symm⟩, fun ⟨_, e, b, hb, h⟩ => ⟨b, hb, by cases e; exact h.symm⟩⟩
  | div =>
    refine least (out (h := C52_div_num W hW (hi' rfl) ht' ⟨b, hb, hr.1⟩)) ?_
    ext r; simp only [BinOp.Rel, mem_ofPred_eq, mem_singleton_iff, exists_eq_left]
  | min =>
    refine exact (C29_min_num W hy' ht').2 ?_
    ext r; simp only [BinOp.Rel, mem_ofPred_eq, eq_comm]
  | max =>
    refine exact (C29_max_num W hy' ht').2 ?_
    ext r; simp only [BinOp.Rel, mem_ofPred_eq, eq_comm]
  | hull =>
    obtain ⟨z, h1, h2⟩ := (C24_hull_num W (.inl hy') ht').2
    refine ⟨z, h1, ?_, fun w hw => h2.2 w (union_subset (fun r hr => hw ⟨b, hb, ?_⟩) fun r hr => hw ⟨r, hr, ?_⟩)⟩
    · rintro r ⟨b, hb, h⟩
      exact gamma_between (h2.1 (.inl rfl)) (h2.1 (.inr hb)) h.1 h.2
    · rw [show r = a from hr]; exact ⟨min_le_left _ _, le_max_left _ _⟩
    · exact ⟨min_le_right _ _, le_max_right _ _⟩

theorem BinOp.IT_nest (o : BinOp) {b : ℝ} (ht : val t = some (b : EReal)) (h : ∃ a ∈ γ x', ∃ r, o.Rel a b r) (hxx : γ x' ⊆ γ x) :
    Nest {r | ∃ a ∈ γ x', o.Rel a b r} (o.IT W.pp x' (φ t)) (o.IT V.pp x t) := by
  obtain ⟨a, ha, r, hr⟩ := h
  have hx' : (γ x').Nonempty := ⟨a, ha⟩
  have hD := hW.directed
  have ht' : val (φ t) = some (b : EReal) := (hφ t).trans ht
  refine .least hφ ?_ ((BinOp.IT_post hV o ht ⟨a, hxx ha, r, hr⟩).mono fun z hz r ⟨a, ha, h⟩ => hz a (hxx ha) r h)
  have out : ∀ {S : Set ℝ} {h : W.Returns (o.IT W.P x' (φ t)) fun z => SmallestEnclosure z S},
      ∃ z, o.IT W.pp x' (φ t) = .ok z ∧ SmallestEnclosure z S :=
    fun {S h} => outcome hD hv (fun _ h => BinOp.IT_sim h o x' (φ t)) h
  cases o with
  | add =>
    refine least (out (h := C12_add_num' W hW ht' hx')) ?_
    ext r; exact ⟨fun ⟨a, ha, h⟩ => ⟨a, ha, b, rfl, h.symm⟩, fun ⟨a, ha, _, e, h⟩ => ⟨a, ha, by cases e; exact h.symm⟩⟩
  | sub =>
    refine least (out (h := C12_sub_num' W hW ht' hx')) ?_
    ext r; exact ⟨fun ⟨a, ha, h⟩ => ⟨a, ha, b, rfl, h.symm⟩, fun ⟨a, ha, _, e, h⟩ => ⟨a, ha, by cases e; exact h.symm⟩⟩
  | mul =>
    refine least (out (h := C12_mul_num' W hW ht' hx')) ?_
    ext r; exact ⟨fun ⟨a, ha, h⟩ => ⟨a, ha, b, rfl, h.symm⟩, fun ⟨a, ha, _, e, h⟩ => ⟨a, ha, by cases e; exact h.symm⟩⟩
  | div =>
    refine least (out (h := C12_div_num' W hW hx' ht' hr.1)) ?_
    ext r; simp only [BinOp.Rel, mem_ofPred_eq, mem_singleton_iff, exists_eq_left]
  | min =>
    refine exact (C29_min_num W hx' ht').1 ?_
    ext r; simp only [BinOp.Rel, mem_ofPred_eq, eq_comm]
  | max =>
    refine exact (C29_max_num W hx' ht').1 ?_
    ext r; simp only [BinOp.Rel, mem_ofPred_eq, eq_comm]
  | hull =>
    obtain ⟨z, h1, h2⟩ := (C24_hull_num W (.inl hx') ht').1
    refine ⟨z, h1, ?_, fun w hw => h2.2 w (union_subset (fun r hr => hw ⟨r, hr, ?_⟩) fun r hr => hw ⟨a, ha, ?_⟩)⟩
    · rintro r ⟨b, hb, h⟩
      exact gamma_between (h2.1 (.inl hb)) (h2.1 (.inr rfl)) h.1 h.2
    · exact ⟨min_le_left _ _, le_max_left _ _⟩
    · rw [show r = b from hr]; exact ⟨min_le_right _ _, le_max_right _ _⟩

omit hv hV in
theorem powI_nest (hV : V.Signed) {k : ℤ} (hk : k ≠ -2147483648) (hi : k < 0 → InfBase T) (hi' : k < 0 → InfBase U)
    (h : ∃ a ∈ γ x', a ≠ 0 ∨ 0 < k) (hxx : γ x' ⊆ γ x) :
    Nest {r | ∃ a ∈ γ x', (a ≠ 0 ∨ 0 < k) ∧ r = a ^ k} (powI W.pp x' k) (powI V.pp x k) := by
  obtain ⟨a, ha, ho⟩ := h
  obtain ⟨p, q, ix⟩ := has_of_mem (hxx ha)
  obtain ⟨p', q', ix'⟩ := has_of_mem ha
  have h0 : k ≤ 0 → a ≠ 0 := fun h => ho.resolve_right (by omega)
  obtain ⟨z', h1, h2⟩ := (BI.powI_res (hW.dir du_tight) (hW.signed.dir du_signed) (hW.div du_tight) W.chk ix' hk (fun h => W.infLaws (hi' h))
    fun h => ⟨a, ha, h0 h⟩).ok_of
  obtain ⟨z, h3, h4⟩ := (powI_res (hV.dir du_signed) (hV.div du_signed) V.chk ix hk (fun h => V.infLaws (hi h))
    fun h => ⟨a, hxx ha, h0 h⟩).ok_of
  refine ⟨z', z, h1, h3, ?_, PowRes.mono hφ h2 h4 ix' ix hxx⟩
  rcases powI_out (B := False) False.elim hW.signed (fun h => .inl (hi' h)) hk ⟨a, ha, ho⟩ with ⟨w, h5, h6⟩ | ⟨_, ⟨⟨⟩, -⟩, -⟩
  cases h1.symm.trans h5
  exact h6

theorem Fn.I_nest {K : PiConst T} {K' : PiConst U} {fuel fuel' : ℕ} (f : Fn) (hs : f.simple = true) (hf : V.ElemOk K (InfBase T) f)
    (hf' : W.FnOk (IsRoundDown U) (IsRoundUp U) f) (hK : Neighbours K') (hi : f.unbounded = true → InfBase U)
    (h : (γ x' ∩ f.dom).Nonempty) (hxx : γ x' ⊆ γ x) :
    Nest (f.real '' (γ x' ∩ f.dom)) (f.I K' fuel' W.pp x') (f.I K fuel V.pp x) := by
  obtain ⟨hB, hg, hu, -⟩ := hf
  have hfu : f.uses = f := by cases f <;> first | rfl | cases hs
  rw [hfu] at hg
  refine .least hφ (least (outcome hW.directed hv (fun _ h => Fn.I_sim W h f x') (C19_smallest_partial W hW hs hf' hK hi h)) rfl) ?_
  exact (Fn.I_post du_weak hV.neg hB.ok hs hu hg (h.mono (inter_subset_inter_left _ hxx))).mono fun z hz =>
    (image_mono (inter_subset_inter_left _ hxx)).trans (hz.encl (du_weak (T := T)).D_le (du_weak (T := T)).U_ge)

theorem Expr.eval_nest {K : PiConst T} {K' : PiConst U} {fuel fuel' : ℕ} {ρ : ℕ → Itv T} {ρ' : ℕ → Itv U} (hρ : ∀ i, γ (ρ' i) ⊆ γ (ρ i))
    (e : Expr T) (hs : e.Supported V K (InfBase T)) (hs' : (e.conv φ).Sharp W K' (InfBase U)) (hd : ∃ r, (e.conv φ).ValueIn ρ' r) :
    Nest {r | (e.conv φ).ValueIn ρ' r} ((e.conv φ).eval K' fuel' W.pp ρ') (e.eval K fuel V.pp ρ) := by
  have step : ∀ {S S' : Set ℝ} {r : Res (Itv U)} {r' : Res (Itv T)} {g : Itv U → Res (Itv U)} {g' : Itv T → Res (Itv T)}, Nest S r r' →
      (∀ x x', S ⊆ γ x' → γ x' ⊆ γ x → Nest S' (g x') (g' x)) → Nest S' (r >>= g) (r' >>= g') := by
    rintro S S' _ _ g g' ⟨z, z', rfl, rfl, h1, h2⟩ h
    exact h z' z h1 h2
  have weak : ∀ {S S' : Set ℝ} {r : Res (Itv U)} {r' : Res (Itv T)}, Nest S' r r' → S ⊆ S' → Nest S r r' := by
    rintro S S' _ _ ⟨z, z', h1, h2, h3, h4⟩ h
    exact ⟨z, z', h1, h2, h.trans h3, h4⟩
  have step₂ : ∀ {S₁ S₂ S' : Set ℝ} {r s : Res (Itv U)} {r' s' : Res (Itv T)} {g : Itv U → Itv U → Res (Itv U)}
      {g' : Itv T → Itv T → Res (Itv T)}, Nest S₁ r r' → Nest S₂ s s' →
      (∀ x x' y y', S₁ ⊆ γ x' → γ x' ⊆ γ x → S₂ ⊆ γ y' → γ y' ⊆ γ y → Nest S' (g x' y') (g' x y)) →
      Nest S' (pair r s >>= fun p => g p.1 p.2) (pair r' s' >>= fun p => g' p.1 p.2) := by
    rintro S₁ S₂ S' _ _ _ _ g g' ⟨z, z', rfl, rfl, h1, h2⟩ ⟨w, w', rfl, rfl, h3, h4⟩ h
    exact h z' z w' w h1 h2 h3 h4
  induction e with
  | var i => exact ⟨ρ' i, ρ i, rfl, rfl, fun r ⟨v, hv, hr⟩ => hr ▸ hv i, hρ i⟩
  | num t =>
    obtain ⟨r₀, v, -, hr⟩ := hd
    obtain ⟨z, hz, -, -, e⟩ := C36_num W hr
    obtain ⟨z', hz', -, -, e'⟩ := C36_num V ((hφ t).symm.trans hr)
    refine ⟨z, z', hz, hz', fun r ⟨v, hv, hr'⟩ => ?_, by rw [e, e']⟩
    rw [e]; exact EReal.coe_eq_coe_iff.1 (Option.some.inj (hr'.symm.trans hr))
  | un o e ih =>
    obtain ⟨ho, hS, hs⟩ := hs
    obtain ⟨ho', hS', hs'⟩ := hs'
    obtain ⟨r₀, v, hv', a₀, hr, hr₀⟩ := hd
    exact step (ih hs hs' ⟨a₀, v, hv', hr⟩) fun x x' hx hxx =>
      weak (UnOp.I_nest hφ hv hV hW o ho ho' hS hS' ⟨a₀, hx ⟨v, hv', hr⟩, r₀, hr₀⟩ hxx) fun r ⟨v, hv, a, ha, h⟩ => ⟨a, hx ⟨v, hv, ha⟩, h⟩
  | pow e k ih =>
    obtain ⟨hsg, hk, ho, hs⟩ := hs
    obtain ⟨-, ho', hs'⟩ := hs'
    obtain ⟨r₀, v, hv', a₀, hr, hr₀, -⟩ := hd
    exact step (g := fun x => powI W.pp x k) (g' := fun x => powI V.pp x k) (ih hs hs' ⟨a₀, v, hv', hr⟩) fun x x' hx hxx =>
      weak (powI_nest hφ hW hsg hk ho ho' ⟨a₀, hx ⟨v, hv', hr⟩, hr₀⟩ hxx) fun r ⟨v, hv, a, ha, h⟩ => ⟨a, hx ⟨v, hv, ha⟩, h⟩
  | bin o e₁ e₂ ih₁ ih₂ =>
    obtain ⟨ho, hs₁, hs₂⟩ := hs
    obtain ⟨ho', hs₁', hs₂'⟩ := hs'
    obtain ⟨r₀, v, hv', a₀, b₀, hr₁, hr₂, hr₀⟩ := hd
    exact step₂ (g := fun x y => o.II W.pp x y) (g' := fun x y => o.II V.pp x y) (ih₁ hs₁ hs₁' ⟨a₀, v, hv', hr₁⟩)
      (ih₂ hs₂ hs₂' ⟨b₀, v, hv', hr₂⟩) fun x x' y y' hx hxx hy hyy =>
      weak (BinOp.II_nest hφ hv hV hW o ho ho' ⟨a₀, hx ⟨v, hv', hr₁⟩, b₀, hy ⟨v, hv', hr₂⟩, r₀, hr₀⟩ hxx hyy)
        fun r ⟨v, hv, a, b, ha, hb, h⟩ => ⟨a, hx ⟨v, hv, ha⟩, b, hy ⟨v, hv, hb⟩, h⟩
  | binL o t e ih =>
    obtain ⟨ho, hs⟩ := hs
    obtain ⟨ho', hs'⟩ := hs'
    obtain ⟨r₀, v, hv', a₀, b₀, ht, hr, hr₀⟩ := hd
    exact step (g := fun x => o.TI W.pp (φ t) x) (g' := fun x => o.TI V.pp t x) (ih hs hs' ⟨b₀, v, hv', hr⟩) fun x x' hx hxx =>
      weak (BinOp.TI_nest hφ hv hV hW o ho ho' ((hφ t).symm.trans ht) ⟨b₀, hx ⟨v, hv', hr⟩, r₀, hr₀⟩ hxx)
        fun r ⟨v, hv, a, b, ht', hb, h⟩ => ⟨b, hx ⟨v, hv, hb⟩, by rwa [EReal.coe_eq_coe_iff.1 (Option.some.inj (ht.symm.trans ht'))]⟩
  | binR o e t ih =>
    obtain ⟨r₀, v, hv', a₀, b₀, hr, ht, hr₀⟩ := hd
    exact step (g := fun x => o.IT W.pp x (φ t)) (g' := fun x => o.IT V.pp x t) (ih hs hs' ⟨a₀, v, hv', hr⟩) fun x x' hx hxx =>
      weak (BinOp.IT_nest hφ hv hV hW o ((hφ t).symm.trans ht) ⟨a₀, hx ⟨v, hv', hr⟩, r₀, hr₀⟩ hxx)
        fun r ⟨v, hv, a, b, ha, ht', h⟩ => ⟨a, hx ⟨v, hv, ha⟩, by rwa [EReal.coe_eq_coe_iff.1 (Option.some.inj (ht.symm.trans ht'))]⟩
  | inter e₁ e₂ ih₁ ih₂ =>
    obtain ⟨hs₁, hs₂⟩ := hs
    obtain ⟨hs₁', hs₂'⟩ := hs'
    obtain ⟨r₀, v, hv', hr₁, hr₂⟩ := hd
    refine step₂ (g := fun x y => lift (intersect W.pp.chk x y)) (g' := fun x y => lift (intersect V.pp.chk x y))
      (ih₁ hs₁ hs₁' ⟨r₀, v, hv', hr₁⟩) (ih₂ hs₂ hs₂' ⟨r₀, v, hv', hr₂⟩) fun x x' y y' hx hxx hy hyy => ?_
    have h₀ : r₀ ∈ γ x' ∩ γ y' := ⟨hx ⟨v, hv', hr₁⟩, hy ⟨v, hv', hr₂⟩⟩
    obtain ⟨z, h1, h2⟩ := C23_intersect W ⟨r₀, h₀⟩
    obtain ⟨z', h1', h2'⟩ := C23_intersect V ⟨r₀, hxx h₀.1, hyy h₀.2⟩
    refine ⟨z, z', h1, h1', ?_, ?_⟩
    · rw [h2]; exact fun r ⟨v, hv, ha, hb⟩ => ⟨hx ⟨v, hv, ha⟩, hy ⟨v, hv, hb⟩⟩
    · rw [h2, h2']; exact inter_subset_inter hxx hyy
  | fn f e ih =>
    obtain ⟨hf, hs⟩ := hs
    obtain ⟨⟨hK, hf', hi, h1⟩, hs'⟩ := hs'
    obtain ⟨r₀, v, hv', a₀, hr, hr₀, -⟩ := hd
    exact step (g := fun x => f.I K' fuel' W.pp x) (g' := fun x => f.I K fuel V.pp x) (ih hs hs' ⟨a₀, v, hv', hr⟩) fun x x' hx hxx =>
      weak (Fn.I_nest hφ hv hV hW f h1 hf hf' hK hi ⟨a₀, hx ⟨v, hv', hr⟩, hr₀⟩ hxx)
        fun r ⟨v, hv, a, ha, hd, h⟩ => ⟨a, ⟨hx ⟨v, hv, ha⟩, hd⟩, h.symm⟩
end
end BI.Refine
