import Verif.Proofs.ExLoop
import Verif.Proofs.Conv
import Mathlib.LinearAlgebra.Matrix.Block
/-! # examples/filter.cpp, `det_sign_algo1` -/

set_option linter.unusedSectionVars false

namespace BI
open Set

section
variable {W : Type} {T : Type} [Num T] {I J : Inv W} {P : Policies (M W) T} {B : Arith Res T} {C : Checking T}

theorem fillI_sim (h : PSim I J P B C) (a : ℕ → ℕ → T) (d : ℕ) (u : ℕ → ℕ → Itv T) :
    Sim I (fillI P a d u) (fillI (purePolicies B C) a d u) := by
  obtain rfl := h.chk
  exact forRange_sim (fun i u => forRange_sim (fun j u => (Sim.lift _).bind fun v => Sim.pure _) _ _ _) _ _ _

theorem pivot1_sim (h : PSim I J P B C) (u : ℕ → ℕ → Itv T) (p : ℕ → ℕ) (d i : ℕ) :
    Sim I (pivot1 P u p d i) (pivot1 (purePolicies B C) u p d i) := by
  obtain rfl := h.chk
  exact forRange_sim (fun j s => (Sim.lift _).bind fun z => Sim.ite (fun _ => Sim.pure _) fun _ =>
    (Sim.lift _).bind fun n => Sim.pure _) _ _ _

theorem elimRow_sim (h : PSim I J P B C) (l : ℕ → Itv T) (f : Itv T) (d i : ℕ) (l' : ℕ → Itv T) :
    Sim I (elimRow P l f d i l') (elimRow (purePolicies B C) l f d i l') :=
  forRange_sim (fun j l' => (mulII_sim h _ _).bind fun q => (subII_sim h _ _).bind fun v => Sim.pure _) _ _ _

theorem elim1_sim (h : PSim I J P B C) (p : ℕ → ℕ) (d i : ℕ) (u : ℕ → ℕ → Itv T) :
    Sim I (elim1 P p d i u) (elim1 (purePolicies B C) p d i u) :=
  forRange_sim (fun k u => (divII_sim h _ _).bind fun f => (elimRow_sim h _ _ _ _ _).bind fun v => Sim.pure _) _ _ _

theorem lu1_sim (h : PSim I J P B C) (d n i : ℕ) (u : ℕ → ℕ → Itv T) (p : ℕ → ℕ) (sig : Int) :
    Sim I (lu1 P d n i u p sig) (lu1 (purePolicies B C) d n i u p sig) := by
  induction n generalizing i u p sig with
  | zero => exact Sim.pure _
  | succ n ih =>
    exact (pivot1_sim h _ _ _ _).bind fun s => Sim.ite (fun _ => Sim.pure _) fun _ =>
      (elim1_sim h _ _ _ _).bind fun u => ih _ _ _ _

theorem detSign1_sim (h : PSim I J P B C) (a : ℕ → ℕ → T) (d : ℕ) (u : ℕ → ℕ → Itv T) :
    Sim I (detSign1 P a d u) (detSign1 (purePolicies B C) a d u) :=
  h.scope ((fillI_sim h.unprot _ _ _).bind fun u => lu1_sim h.unprot _ _ _ _ _ _)
end

/-! ## Determinants -/

/-- The leading part of a matrix. -/
abbrev sq (d : ℕ) (A : ℕ → ℕ → ℝ) : Matrix (Fin d) (Fin d) ℝ := Matrix.of fun i j => A i j

theorem det_swap_rows {d i k : ℕ} (hi : i < d) (hk : k < d) (hne : k ≠ i) (A : ℕ → ℕ → ℝ) :
    (sq d fun r => A (Equiv.swap i k r)).det = -(sq d A).det := by
  have e : (sq d fun r => A (Equiv.swap i k r)) =
      (sq d A).submatrix (Equiv.swap (⟨i, hi⟩ : Fin d) ⟨k, hk⟩) id := by
    ext r c
    change A (Equiv.swap i k r) c = A ((Equiv.swap (⟨i, hi⟩ : Fin d) ⟨k, hk⟩) r) c
    congr 1
    simp only [Equiv.swap_apply_def, Fin.ext_iff]
    split_ifs <;> rfl
  rw [e, Matrix.det_permute, Equiv.Perm.sign_swap (by simpa [Fin.ext_iff] using hne.symm)]
  simp

theorem det_elim {d i : ℕ} (hi : i < d) (A B : ℕ → ℕ → ℝ) (c : ℕ → ℝ) (hc : c i = 0)
    (h : ∀ k < d, ∀ j < d, A k j = B k j + c k * B i j) : (sq d A).det = (sq d B).det :=
  Matrix.det_eq_of_forall_row_eq_smul_add_const (fun k : Fin d => c k) ⟨i, hi⟩ hc
    fun k j => h k k.2 j j.2

theorem det_tri {d : ℕ} (A : ℕ → ℕ → ℝ) (h : ∀ c < d, ∀ k < d, c < k → A k c = 0) :
    (sq d A).det = ∏ c ∈ Finset.range d, A c c := by
  rw [Matrix.det_of_isUpperTriangular, Finset.prod_range]
  · rfl
  · exact fun i j hij => h j j.2 i i.2 hij

/-- If the columns before column `i` are eliminated and there is no pivot in column `i`, the determinant is zero. -/
theorem det_no_pivot {d i : ℕ} (hi : i < d) (A : ℕ → ℕ → ℝ) (h : ∀ c < i, ∀ k < d, c < k → A k c = 0)
    (hp : ∀ k < d, i ≤ k → A k i = 0) : (sq d A).det = 0 := by
  have h2 := Matrix.twoBlockTriangular_det (sq d A) (fun k => (k : ℕ) < i) (by
    intro k hk j hj
    exact h j hj k k.2 (by omega))
  rw [h2]
  apply mul_eq_zero_of_right
  exact Matrix.det_eq_zero_of_column_eq_zero ⟨⟨i, hi⟩, by simp⟩ fun k => hp k.1 k.1.2 (not_lt.1 k.2)

/-! ## The invariants -/

section
variable {T : Type} [Num T] [Val T] [NumLaws T] {V : Env T} {x y : Itv T} {r q : ℝ} {ex : Prop}

/-- `x` contains `r`; in the exact case nothing else. -/
def Rp (ex : Prop) (r : ℝ) (x : Itv T) : Prop := r ∈ γ x ∧ (ex → γ x = {r})

theorem rp_of (hV : V.Directed) (he : ex → V.Ok Eq Eq) {op : Res (Itv T)} {S : Set ℝ}
    (h : ∀ D U, DU T D U → V.Ok D U → Post True op (Bnd D U S)) (hr : r ∈ S) (hs : ex → S = {r}) :
    Post True op (Rp ex r) := by
  obtain ⟨z, hz, h1⟩ := (h _ _ du_weak hV).total
  refine Post.of_eq hz ⟨h1.encl id id hr, fun e => ?_⟩
  have h2 := h _ _ du_eq (he e)
  rw [hz] at h2
  obtain ⟨l, u, e₁, e₂, k1, k2, k3, k4, rfl, rfl⟩ := h2
  have : E S = {(r : EReal)} := by rw [hs e]; unfold E; simp
  rw [this] at k3 k4
  have k5 := k3.unique isGLB_singleton
  have k6 := k4.unique isLUB_singleton
  subst k5; subst k6
  rw [← gamma_single (t := z.lower) k1]
  have h3 : Has z (r : EReal) r := ⟨k1, k2, EReal.coe_ne_top _, EReal.coe_ne_bot _, le_rfl⟩
  rw [h3.gamma, (has_single k1).gamma]

theorem Rp.has (h : Rp ex r x) : ∃ a b, Has x a b := has_of_mem h.1

theorem rp_sub (hV : V.Directed) (he : ex → V.Ok Eq Eq) (hx : Rp ex r x) (hy : Rp ex q y) :
    Post True (subII V.pp x y) (Rp ex (r - q)) := by
  obtain ⟨_, _, ix⟩ := hx.has
  obtain ⟨_, _, iy⟩ := hy.has
  exact rp_of hV he (fun D U hDU h => subII_post (h.dir hDU).op V.chk ix iy) ⟨r, hx.1, q, hy.1, rfl⟩ fun e => by
    rw [hx.2 e, hy.2 e, image2_singleton]

theorem rp_mul (hV : V.Directed) (he : ex → V.Ok Eq Eq) (hx : Rp ex r x) (hy : Rp ex q y) :
    Post True (mulII V.pp x y) (Rp ex (r * q)) := by
  obtain ⟨_, _, ix⟩ := hx.has
  obtain ⟨_, _, iy⟩ := hy.has
  exact rp_of hV he (fun D U hDU h => mulII_post (h.dir hDU).op V.chk ix iy) ⟨r, hx.1, q, hy.1, rfl⟩ fun e => by
    rw [hx.2 e, hy.2 e, image2_singleton]

theorem rp_div (hV : V.Directed) (he : ex → V.Ok Eq Eq) (hx : Rp ex r x) (hy : Rp ex q y) (h0 : (0 : ℝ) ∉ γ y) :
    Post True (divII V.pp x y) (Rp ex (r / q)) := by
  obtain ⟨_, _, ix⟩ := hx.has
  obtain ⟨_, _, iy⟩ := hy.has
  have hq : q ≠ 0 := fun h => h0 (h ▸ hy.1)
  refine rp_of hV he (fun D U hDU h => divII_nz_post (h.div hDU) V.chk ix iy h0) ⟨r, hx.1, q, hy.1, hq, rfl⟩ fun e => ?_
  rw [hx.2 e, hy.2 e]
  ext z
  constructor
  · rintro ⟨a, rfl, b, rfl, _, rfl⟩; rfl
  · rintro rfl; exact ⟨r, rfl, q, rfl, hq, rfl⟩

theorem rp_ctorT {t : T} (ht : val t = some (r : EReal)) : Post True (ctorT V.C t) (Rp ex r) := by
  have e : ctorT V.C t = .ok ⟨t, t⟩ := by
    unfold ctorT
    rw [V.chk.isNan t _ ht]; rfl
  refine Post.of_eq e ⟨?_, fun _ => gamma_single ht⟩
  rw [gamma_single ht]; rfl

/-- filter.cpp 64-69 -/
theorem fillI_post {a : ℕ → ℕ → T} {A : ℕ → ℕ → ℝ} {d : ℕ} (hA : ∀ i < d, ∀ j < d, val (a i j) = some (A i j : EReal))
    (u₀ : ℕ → ℕ → Itv T) : Post True (fillI V.pp a d u₀) fun u => ∀ i < d, ∀ j < d, Rp ex (A i j) (u i j) := by
  unfold fillI
  refine forRange_post (fun k (u : ℕ → ℕ → Itv T) => ∀ i < k, ∀ j < d, Rp ex (A i j) (u i j)) (zero_add _) (by intro i hi; omega) ?_
  intro k u _ hk hu
  refine (forRange_post (fun l (u : ℕ → ℕ → Itv T) => (∀ i < k, ∀ j < d, Rp ex (A i j) (u i j)) ∧ ∀ j < l, Rp ex (A k j) (u k j))
    (zero_add _) ⟨hu, by intro i hi; omega⟩ ?_).mono ?_
  · rintro l u _ hl ⟨h1, h2⟩
    refine (rp_ctorT (V := V) (ex := ex) (hA k hk l hl)).bind fun v hv => Post.pure ⟨fun i hi j hj => ?_, fun j hj => ?_⟩
    · unfold upd2
      rw [Function.update_of_ne (by omega)]
      exact h1 i hi j hj
    · unfold upd2
      rw [Function.update_self]
      by_cases hjl : j = l
      · subst hjl; rw [Function.update_self]; exact hv
      · rw [Function.update_of_ne hjl]; exact h2 j (by omega)
  · rintro u ⟨h1, h2⟩ i hi j hj
    by_cases hik : i = k
    · subst hik; exact h2 j hj
    · exact h1 i (by omega) j hj

/-- The pivot has no zero; in the exact case, if none is found, the rest of the column is zero. -/
theorem pivot1_post (hn : ∀ a : T, Num.neg a ≠ none) {u : ℕ → ℕ → Itv T} {p : ℕ → ℕ} {d i : ℕ} {B : ℕ → ℕ → ℝ} (hi : i < d)
    (hu : ∀ k < d, i ≤ k → Rp ex (B k i) (u (p k) i)) :
    Post True (pivot1 V.pp u p d i) fun s => ∃ e, val s.1 = some e ∧
      ((e = 0 ∧ (ex → ∀ k < d, i ≤ k → B k i = 0)) ∨ (0 < e ∧ i ≤ s.2 ∧ s.2 < d ∧ (0 : ℝ) ∉ γ (u (p s.2) i))) := by
  unfold pivot1
  refine forRange_post (fun j (s : T × ℕ) => ∃ e, val s.1 = some e ∧
      ((e = 0 ∧ (ex → ∀ k < j, i ≤ k → B k i = 0)) ∨ (0 < e ∧ i ≤ s.2 ∧ s.2 < d ∧ (0 : ℝ) ∉ γ (u (p s.2) i))))
      (by omega) ⟨0, val_zero, .inl ⟨rfl, fun _ k h1 h2 => by omega⟩⟩ ?_
  rintro j s hj hjd ⟨e, he, hs⟩
  have hr := hu j hjd hj
  obtain ⟨a, b, ix⟩ := hr.has
  have e1 : (lift (zeroIn V.pp.chk (u (p j) i)) : Res Bool) = .ok (decide (a ≤ 0 ∧ 0 ≤ b)) := zeroIn_eq V.chk ix
  by_cases hz : a ≤ 0 ∧ 0 ≤ b
  · rw [decide_eq_true hz] at e1
    have h0 := (mem_zero_iff ix).2 hz
    simp only [e1]
    refine Post.pure ⟨e, he, hs.imp (fun ⟨h1, h2⟩ => ⟨h1, fun hex k hk hik => ?_⟩) id⟩
    by_cases hkj : k = j
    · subst hkj
      have := hr.2 hex
      rw [this] at h0
      exact h0.symm
    · exact h2 hex k (by omega) hik
  · rw [decide_eq_false hz] at e1
    have h0 : (0 : ℝ) ∉ γ (u (p j) i) := fun h => hz ((mem_zero_iff ix).1 h)
    simp only [e1]
    obtain ⟨w, hw, vw⟩ := norm_has hn V.chk ix
    have e2 : (lift (norm V.pp.chk (u (p j) i)) : Res T) = .ok w := hw
    change Post True ((lift (norm V.pp.chk (u (p j) i)) : Res T) >>= _) _
    rw [e2]
    have hpos : 0 < max (-a) b := by
      by_contra hc
      rw [not_lt, max_le_iff] at hc
      have h1 : 0 ≤ a := by have := EReal.neg_le_neg_iff.2 hc.1; simpa using this
      have h2 := ix.le
      exact hz ⟨h2.trans hc.2, h1.trans h2⟩
    change Post True (pure (if Num.lt s.1 w then (w, j) else s)) _
    rw [lt_eq he vw]
    by_cases hlt : e < max (-a) b
    · simp only [hlt, decide_true, if_true]
      exact Post.pure ⟨_, vw, .inr ⟨hpos, hj, hjd, h0⟩⟩
    · simp only [hlt, decide_false, Bool.false_eq_true, if_false]
      refine Post.pure ⟨e, he, ?_⟩
      rcases hs with ⟨rfl, _⟩ | hs
      · exact absurd hpos hlt
      · exact .inr hs

theorem elimRow_post (hV : V.Directed) (he : ex → V.Ok Eq Eq) {l1 l2 : ℕ → Itv T} {B1 B2 : ℕ → ℝ} {f : Itv T} {c : ℝ}
    {d i : ℕ} (h1 : ∀ j < d, i < j → Rp ex (B1 j) (l1 j)) (h2 : ∀ j < d, i < j → Rp ex (B2 j) (l2 j)) (hf : Rp ex c f) :
    Post True (elimRow V.pp l1 f d i l2) fun l => ∀ j < d, i < j → Rp ex (B2 j - c * B1 j) (l j) := by
  by_cases hid : i + 1 ≤ d
  · refine (forRange_post (fun n l => (∀ j < d, i < j → j < n → Rp ex (B2 j - c * B1 j) (l j)) ∧
      ∀ j < d, n ≤ j → Rp ex (B2 j) (l j)) (by omega) ⟨fun j _ h h' => by omega, fun j hj h => h2 j hj h⟩ ?_).mono
      fun l hl j hj h => hl.1 j hj h hj
    rintro n l hn hnd ⟨k1, k2⟩
    refine (rp_mul hV he hf (h1 n hnd hn)).bind fun q hq => (rp_sub hV he (k2 n hnd le_rfl) hq).bind fun v hv => ?_
    refine Post.pure ⟨fun j hj hij hjn => ?_, fun j hj hnj => ?_⟩
    · by_cases hjn' : j = n
      · subst hjn'; rw [Function.update_self]; exact hv
      · rw [Function.update_of_ne hjn']; exact k1 j hj hij (by omega)
    · rw [Function.update_of_ne (by omega)]; exact k2 j hj (by omega)
  · have : d - (i + 1) = 0 := by omega
    unfold elimRow
    rw [this]
    exact Post.pure fun j hj h => by omega

theorem elim1_post (hV : V.Directed) (he : ex → V.Ok Eq Eq) {p : ℕ → ℕ} {d i : ℕ} {u : ℕ → ℕ → Itv T} {B : ℕ → ℕ → ℝ}
    (hi : i < d) (hp : ∀ k < d, ∀ l < d, p k = p l → k = l) (h0 : (0 : ℝ) ∉ γ (u (p i) i))
    (hu : ∀ k < d, i ≤ k → ∀ j < d, i ≤ j → Rp ex (B k j) (u (p k) j)) :
    Post True (elim1 V.pp p d i u) fun u' => ∀ k < d, i < k → ∀ j < d, i < j →
      Rp ex (B k j - B k i / B i i * B i j) (u' (p k) j) := by
  refine (forRange_post (fun n u' => (∀ k < d, i < k → k < n → ∀ j < d, i < j →
      Rp ex (B k j - B k i / B i i * B i j) (u' (p k) j)) ∧ (∀ k < d, n ≤ k → u' (p k) = u (p k)) ∧
      u' (p i) = u (p i)) (by omega) ⟨fun k _ h h' => by omega, fun _ _ _ => rfl, rfl⟩ ?_).mono
      fun u' hu' k hk hik j hj hij => hu'.1 k hk hik hk j hj hij
  rintro n u' hn hnd ⟨k1, k2, k3⟩
  have e1 : u' (p n) = u (p n) := k2 n hnd le_rfl
  rw [e1, k3]
  refine (rp_div hV he (hu n hnd (by omega) i hi le_rfl) (hu i hi le_rfl i hi le_rfl) h0).bind fun f hf => ?_
  refine (elimRow_post hV he (fun j hj hij => hu i hi le_rfl j hj hij.le)
    (fun j hj hij => hu n hnd (by omega) j hj hij.le) hf).bind fun l hl => Post.pure ⟨?_, ?_, ?_⟩
  · intro k hk hik hkn j hj hij
    by_cases hkn' : k = n
    · subst hkn'; rw [Function.update_self]; exact hl j hj hij
    · rw [Function.update_of_ne fun h => hkn' (hp k hk n hnd h)]
      exact k1 k hk hik (by omega) j hj hij
  · intro k hk hnk
    rw [Function.update_of_ne fun h => by have := hp k hk n hnd h; omega]
    exact k2 k hk (by omega)
  · rw [Function.update_of_ne fun h => by have := hp i hi n hnd h; omega]
    exact k3

/-- The state of the factorisation: `B` is a matrix with rows in the order of the pivots, obtained from `A` by row
operations, whose entries are in the intervals. -/
structure LU1 (ex : Prop) (d : ℕ) (A : ℕ → ℕ → ℝ) (i : ℕ) (u : ℕ → ℕ → Itv T) (p : ℕ → ℕ) (sig : Int) (B : ℕ → ℕ → ℝ) :
    Prop where
  inj : ∀ k < d, ∀ l < d, p k = p l → k = l
  mem : ∀ k < d, i ≤ k → ∀ j < d, i ≤ j → Rp ex (B k j) (u (p k) j)
  tri : ∀ c < i, ∀ k < d, c < k → B k c = 0
  sign : ∃ s : ℝ, (s = 1 ∨ s = -1) ∧ (sq d A).det = s * (sq d B).det ∧ 0 < sig * s * ∏ c ∈ Finset.range i, B c c
  unit : sig = 1 ∨ sig = -1

theorem swapP_eq (p : ℕ → ℕ) (i k l : ℕ) : swapP p i k l = p (Equiv.swap i k l) := by
  unfold swapP
  rw [Equiv.swap_apply_def, Function.update_apply, Function.update_apply]
  split_ifs with h1 h2 h3 <;> simp_all

theorem LU1.swap {d : ℕ} {A B : ℕ → ℕ → ℝ} {i k : ℕ} {u : ℕ → ℕ → Itv T} {p : ℕ → ℕ} {sig : Int}
    (h : LU1 ex d A i u p sig B) (hi : i < d) (hk : k < d) (hik : i < k) :
    LU1 ex d A i u (swapP p i k) (-sig) (fun r => B (Equiv.swap i k r)) := by
  have hd : ∀ r, r < d → Equiv.swap i k r < d := fun r hr => by
    rw [Equiv.swap_apply_def]; split_ifs <;> assumption
  have hge : ∀ r, i ≤ r → i ≤ Equiv.swap i k r := fun r hr => by
    rw [Equiv.swap_apply_def]; split_ifs <;> omega
  refine ⟨fun r hr l hl e => ?_, fun r hr hir j hj hij => ?_, fun c hc r hr hcr => ?_, ?_, ?_⟩
  · rw [swapP_eq, swapP_eq] at e
    exact (Equiv.swap i k).injective (h.inj _ (hd r hr) _ (hd l hl) e)
  · rw [swapP_eq]
    exact h.mem _ (hd r hr) (hge r hir) j hj hij
  · refine h.tri c hc _ (hd r hr) ?_
    rw [Equiv.swap_apply_def]
    split_ifs <;> omega
  · obtain ⟨s, hs, h1, h2⟩ := h.sign
    refine ⟨-s, by rcases hs with rfl | rfl <;> simp, ?_, ?_⟩
    · rw [det_swap_rows hi hk hik.ne', h1]; ring
    · have e : ∏ c ∈ Finset.range i, B (Equiv.swap i k c) c = ∏ c ∈ Finset.range i, B c c := by
        refine Finset.prod_congr rfl fun c hc => ?_
        rw [Finset.mem_range] at hc
        rw [Equiv.swap_apply_of_ne_of_ne (by omega) (by omega)]
      rw [e]
      push_cast
      linarith
  · rcases h.unit with h | h <;> simp [h]

theorem LU1.elim {d : ℕ} {A B : ℕ → ℕ → ℝ} {i : ℕ} {u u' : ℕ → ℕ → Itv T} {p : ℕ → ℕ} {sig sig' : Int}
    (h : LU1 ex d A i u p sig B) (hi : i < d) (h0 : B i i ≠ 0) (hs : sig' = if B i i < 0 then -sig else sig)
    (hu : ∀ k < d, i < k → ∀ j < d, i < j → Rp ex (B k j - B k i / B i i * B i j) (u' (p k) j)) :
    LU1 ex d A (i + 1) u' p sig' fun k j => if i < k then B k j - B k i / B i i * B i j else B k j := by
  refine ⟨h.inj, fun k hk hik j hj hij => ?_, fun c hc k hk hck => ?_, ?_, ?_⟩
  · rw [if_pos (by omega)]
    exact hu k hk (by omega) j hj (by omega)
  · by_cases hci : c = i
    · subst hci
      rw [if_pos hck]
      field_simp
      ring
    · have hc' : c < i := by omega
      split_ifs with hik
      · rw [h.tri c hc' k hk hck, h.tri c hc' i hi hc']; ring
      · exact h.tri c hc' k hk hck
  · obtain ⟨s, hs', h1, h2⟩ := h.sign
    refine ⟨s, hs', ?_, ?_⟩
    · rw [h1]
      congr 1
      symm
      refine det_elim hi _ _ (fun k => if i < k then -(B k i / B i i) else 0) (by simp) fun k _ j _ => ?_
      split_ifs <;> ring
    · rw [Finset.prod_range_succ, if_neg (lt_irrefl i)]
      have e : ∏ c ∈ Finset.range i, (if i < c then B c c - B c i / B i i * B i c else B c c) =
          ∏ c ∈ Finset.range i, B c c := by
        refine Finset.prod_congr rfl fun c hc => ?_
        rw [Finset.mem_range] at hc
        rw [if_neg (by omega)]
      rw [e, hs]
      rcases lt_or_gt_of_ne h0 with h | h
      · rw [if_pos h]; push_cast; nlinarith
      · rw [if_neg h.le.not_gt]
        have := mul_pos h2 h
        linarith
  · rw [hs]
    rcases h.unit with h | h <;> rw [h] <;> split_ifs <;> simp

theorem lu1_post (hV : V.Directed) (he : ex → V.Ok Eq Eq) {d n i : ℕ} (hn : i + n = d) {A B : ℕ → ℕ → ℝ}
    {u : ℕ → ℕ → Itv T} {p : ℕ → ℕ} {sig : Int} (h : LU1 ex d A i u p sig B) :
    Post True (lu1 V.pp d n i u p sig) fun s =>
      (s = 1 ∧ 0 < (sq d A).det) ∨ (s = -1 ∧ (sq d A).det < 0) ∨ (s = 0 ∧ (ex → (sq d A).det = 0)) := by
  induction n generalizing i u p sig B with
  | zero =>
    obtain rfl : i = d := hn
    refine Post.pure ?_
    obtain ⟨s, hs, h1, h2⟩ := h.sign
    rw [← det_tri B fun c hc => h.tri c hc] at h2
    rw [mul_assoc, ← h1] at h2
    rcases h.unit with e | e <;> rw [e] at h2 ⊢ <;> push_cast at h2
    · exact .inl ⟨rfl, by linarith⟩
    · exact .inr (.inl ⟨rfl, by linarith⟩)
  | succ n ih =>
    have hi : i < d := by omega
    refine (pivot1_post (Env.Ok.neg hV) hi fun k hk hik => h.mem k hk hik i hi le_rfl).bind fun ⟨mx, piv⟩ ⟨e, he', hs⟩ => ?_
    dsimp only at he' hs ⊢
    have hz : Num.eq mx (Num.lit 0 : T) = decide (e = 0) := isZero_eq he'
    rw [hz]
    rcases hs with ⟨h0, hex⟩ | ⟨hpos, hpi, hpd, hnz⟩
    · rw [decide_eq_true h0, if_pos rfl]
      refine Post.pure (.inr (.inr ⟨rfl, fun x => ?_⟩))
      obtain ⟨s, _, h1, _⟩ := h.sign
      rw [h1, det_no_pivot hi B h.tri (hex x), mul_zero]
    · rw [decide_eq_false hpos.ne', if_neg (by simp)]
      have key : ∀ (p' : ℕ → ℕ) (sig' : Int) (B' : ℕ → ℕ → ℝ), LU1 ex d A i u p' sig' B' → (0 : ℝ) ∉ γ (u (p' i) i) →
          Post True (elim1 V.pp p' d i u >>= fun u' => lu1 V.pp d n (i + 1) u' p'
            (if cerIT .lt (u (p' i) i) (Num.lit 0) then -sig' else sig')) fun s =>
            (s = 1 ∧ 0 < (sq d A).det) ∨ (s = -1 ∧ (sq d A).det < 0) ∨ (s = 0 ∧ (ex → (sq d A).det = 0)) := by
        intro p' sig' B' h' h0
        refine (elim1_post hV he hi h'.inj h0 h'.mem).bind fun u' hu' => ?_
        have hm := h'.mem i hi le_rfl i hi le_rfl
        have hne : B' i i ≠ 0 := fun e => h0 (e ▸ hm.1)
        refine ih (by omega) (h'.elim hi hne ?_ hu')
        obtain ⟨a, b, ix⟩ := hm.has
        have ec : cerIT .lt (u (p' i) i) (Num.lit 0 : T) = decide (b < 0) := isNeg_eq ix.up
        have hb : b < 0 ↔ B' i i < 0 := by
          constructor
          · intro hb
            exact_mod_cast (ix.ub hm.1).trans_lt hb
          · intro hB
            by_contra hc
            rw [not_lt] at hc
            exact h0 ((mem_zero_iff ix).2 ⟨(ix.lb hm.1).trans (by exact_mod_cast hB.le), hc⟩)
        rw [ec]
        simp only [hb, decide_eq_true_eq]
      by_cases hpv : piv = i
      · subst hpv
        simp only [ne_eq, not_true_eq_false, if_false]
        exact key p sig B h hnz
      · simp only [ne_eq, hpv, not_false_eq_true, if_true]
        refine key _ _ _ (h.swap hi hpd (by omega)) ?_
        rw [swapP_eq, Equiv.swap_apply_left]
        exact hnz

theorem detSign1_post (hV : V.Directed) (he : ex → V.Ok Eq Eq) {d : ℕ} {A : ℕ → ℕ → ℝ} {a : ℕ → ℕ → T}
    (hA : ∀ i < d, ∀ j < d, val (a i j) = some (A i j : EReal)) (junk : ℕ → ℕ → Itv T) :
    Post True (detSign1 V.pp a d junk) fun s =>
      (s = 1 ∧ 0 < (sq d A).det) ∨ (s = -1 ∧ (sq d A).det < 0) ∨ (s = 0 ∧ (ex → (sq d A).det = 0)) := by
  refine (fillI_post (V := V) (ex := ex) hA junk).bind fun u hu => lu1_post (B := A) hV he (zero_add _) ?_
  exact ⟨fun _ _ _ _ h => h, fun k hk _ j hj _ => hu k hk j hj, fun c hc => by omega,
    ⟨1, .inl rfl, by rw [one_mul], by simp⟩, .inl rfl⟩
end
end BI
