import Verif.Props.Det
import Verif.Props.Ctor
import Verif.Props.Arith
import Verif.Proofs.ExFilter2
import Mathlib.LinearAlgebra.Matrix.Determinant.Basic
/-!
# C85: what the program of test/det.cpp computes

The parts of the elimination, for all sizes: the Hilbert matrix, the search of the pivot, the exchanges, the elimination below
the pivot.
-/

namespace BI
open Set

variable {f : Fmt}

theorem Env.Returns.congr {T : Type} [Num T] [Val T] [NumLaws T] {V : Env T} {α : Type} {op op' : M V.ctl.W α} {Q : α → Prop} (h : V.Returns op Q)
    (e : ∀ s, op' s = op s) : V.Returns op' Q := by
  intro s hs
  rw [e s]; exact h s hs

theorem Prog.returns_bind {T : Type} [Num T] [Val T] [NumLaws T] {V : Env T} {α β : Type} {a : Prog T α} {k : α → Prog T β} {Q : α → Prop}
    {R : β → Prop} (h : V.Returns (a.run V.P) Q) (hk : ∀ x, Q x → V.Returns ((k x).run V.P) R) :
    V.Returns ((a >>= k).run V.P) R :=
  (h.bind hk).congr fun s => Prog.run_bind V.P a k s

theorem Prog.returns_pure {T : Type} [Num T] [Val T] [NumLaws T] {V : Env T} {α : Type} {a : α} {Q : α → Prop} (h : Q a) :
    V.Returns ((Pure.pure a : Prog T α).run V.P) Q := Env.Returns.pure h

theorem Prog.returns_lib {T : Type} [Num T] [Val T] [NumLaws T] {V : Env T} {α : Type} {c : Call T α} {Q : α → Prop} (h : V.Returns (c.run V.P) Q) :
    V.Returns ((Prog.lib c).run V.P) Q := h.bind fun _ => Env.Returns.pure

/-- A loop keeps what every step keeps. -/
theorem Prog.returns_loop {T : Type} [Num T] [Val T] [NumLaws T] {V : Env T} {σ : Type} {g : ℕ → σ → Prog T σ} (I : ℕ → σ → Prop) {lo n : ℕ} {s : σ}
    (h0 : I lo s) (h : ∀ j s, lo ≤ j → j < lo + n → I j s → V.Returns ((g j s).run V.P) (I (j + 1))) :
    V.Returns ((Prog.loop g lo n s).run V.P) (I (lo + n)) := by
  induction n generalizing lo s with
  | zero => exact Env.Returns.pure h0
  | succ n ih =>
    refine Prog.returns_bind (h lo s le_rfl (by omega) h0) fun s' hs' => ?_
    have := ih (lo := lo + 1) hs' fun j s h1 h2 => h j s (by omega) (by omega)
    rwa [show lo + 1 + n = lo + (n + 1) by omega] at this

/-- The lower bound of the absolute value is the least absolute value. -/
theorem abs_least {T : Type} [Num T] [Val T] [NumLaws T] {C : Checking T} (hn : ∀ a : T, Num.neg a ≠ none) (hC : ChkLaws C)
    {x : Itv T} (hx : (γ x).Nonempty) : ∃ z, ∃ l : ℝ, absI C x = .ok z ∧ val z.lower = some (l : EReal) ∧
      IsLeast ((fun r => |r|) '' γ x) l := by
  obtain ⟨a, b, ix⟩ := has_of_nonempty hx
  obtain ⟨z, p, q, hz, iz, e⟩ := absI_has hn hC ix
  rw [← ix.gamma] at e
  have hb : p ≠ ⊥ := by
    rintro rfl
    obtain ⟨r, hr, hr'⟩ : ∃ r : ℝ, r < 0 ∧ (r : EReal) ≤ q := by
      induction q using EReal.rec with
      | bot => exact absurd rfl iz.ne_bot
      | top => exact ⟨-1, by norm_num, le_top⟩
      | coe q => exact ⟨min q 0 - 1, by have := min_le_right q 0; linarith, by
          have := min_le_left q 0; exact_mod_cast (by linarith : min q 0 - 1 ≤ q)⟩
    have : r ∈ RI ⊥ q := ⟨bot_le, hr'⟩
    rw [e] at this
    obtain ⟨s, -, rfl⟩ := this
    exact absurd (abs_nonneg s) (not_le.2 hr)
  lift p to ℝ using ⟨iz.ne_top, hb⟩
  refine ⟨z, p, hz, iz.lo, ?_⟩
  rw [← e]
  exact ⟨⟨le_rfl, iz.le⟩, fun r hr => by exact_mod_cast hr.1⟩

namespace Det

/-- The intervals of `u` contain the entries of the matrix `A` (rows and columns up to `size`). -/
def Encloses (size : ℕ) (u : Mat (Fl f)) (A : ℕ → ℕ → ℝ) : Prop := ∀ i < size, ∀ j < size, A i j ∈ γ (u i j)

/-- One step of the elimination in exact arithmetic: subtract multiples of row `i` from the rows below. -/
noncomputable def step (i : ℕ) (A : ℕ → ℕ → ℝ) : ℕ → ℕ → ℝ := fun j k =>
  if i < j then A j k - A j i / A i i * A i k else A j k

end Det

variable (V : Env (Fl f)) (hk : V.kind ≠ .exact)
include hk

/-! ## C85 -/

/-- The first loop encloses the Hilbert matrix. -/
theorem C85_hilbert (size : ℕ) (junk : Det.Mat (Fl f)) :
    V.Returns ((Det.fill size junk).run V.P) fun u => Det.Encloses size u fun i j => 1 / ((i : ℝ) + j + 1) := by
  have hV := V.fl_directed hk
  refine (Prog.returns_loop (V := V) (fun i u => ∀ a < i, ∀ b < size, (1 / ((a : ℝ) + b + 1)) ∈ γ (u a b)) (by intro a h; omega)
    fun i u _ hi hu => ?_).mono fun u h => by rwa [Nat.zero_add] at h
  refine (Prog.returns_loop (V := V) (fun j u => (∀ a < i, ∀ b < size, (1 / ((a : ℝ) + b + 1)) ∈ γ (u a b)) ∧
    ∀ b < j, (1 / ((i : ℝ) + b + 1)) ∈ γ (u i b)) ⟨hu, by intro b h; omega⟩ fun j u _ hj hu => ?_).mono fun u h => ?_
  · refine Prog.returns_bind (Prog.returns_lib (C36_src_int_partial V hk 32 (n := 1) (by norm_num))) fun a ha => ?_
    refine Prog.returns_bind (Prog.returns_lib (C36_src_int_partial V hk 32 (n := i + j + 1) (by norm_num; omega))) fun b hb => ?_
    have ha' := ha.1 rfl
    have hb' := hb.1 rfl
    push_cast at ha' hb'
    have h0 : ((i : ℝ) + j + 1) ≠ 0 := by positivity
    refine Prog.returns_bind (Prog.returns_lib (C04_div_partial V hV ⟨_, ha'⟩ ⟨_, hb', h0⟩ (.inl fl_inf))) fun q hq => ?_
    refine Prog.returns_pure ⟨fun a' ha1 b' hb1 => ?_, fun b' hb1 => ?_⟩
    · unfold Det.set
      rw [if_neg (by omega)]
      exact hu.1 a' ha1 b' hb1
    · unfold Det.set
      split
      · rename_i h
        rw [h.2]
        exact hq _ ha' _ hb' h0
      · exact hu.2 b' (by omega)
  · rw [Nat.zero_add] at h
    intro a ha b hb
    rcases Nat.lt_succ_iff_lt_or_eq.1 ha with h1 | h1
    · exact h.1 a h1 b hb
    · subst h1; exact h.2 b hb

/-- The elimination below the pivot: the rows below get the multiple of row `i` that makes their entry in column `i` zero. The
entries of row `i` left of the pivot are zero, as after the steps before (the code leaves these columns alone). -/
theorem C85_eliminate (size i : ℕ) (hi : i < size) (u : Det.Mat (Fl f)) (A : ℕ → ℕ → ℝ) (hu : Det.Encloses size u A)
    (h0 : A i i ≠ 0) (hz : ∀ k < i, A i k = 0) :
    V.Returns ((Det.eliminate size i u).run V.P) fun u' => Det.Encloses size u' (Det.step i A) := by
  have hV := V.fl_directed hk
  -- before row `j`: the rows above `j` are done
  refine (Prog.returns_loop (V := V) (fun j u' => ∀ a < size, ∀ b < size,
    (if a < j then Det.step i A a b else A a b) ∈ γ (u' a b)) (fun a ha b hb => ?_) fun j u' hj hj' hu' => ?_).mono fun u' h => ?_
  · have := hu a ha b hb
    split
    · unfold Det.step
      rwa [if_neg (by omega)]
    · exact this
  · have hji := hu' j (by omega) i hi
    rw [if_neg (lt_irrefl _)] at hji
    refine Prog.returns_bind (Prog.returns_lib (C04_div_partial V hV ⟨_, hji⟩ ⟨_, hu i hi i hi, h0⟩ (.inl fl_inf))) fun q hq => ?_
    have hq := hq _ hji _ (hu i hi i hi) h0
    refine (Prog.returns_loop (V := V) (fun k u' => ∀ a < size, ∀ b < size,
      (if a < j ∨ (a = j ∧ b < k) then Det.step i A a b else A a b) ∈ γ (u' a b)) (fun a ha b hb => ?_)
      fun k u' hk1 hk2 hu' => ?_).mono fun u' h => ?_
    · have := hu' a ha b hb
      split
      · rename_i h
        rcases h with h | ⟨rfl, h⟩
        · rwa [if_pos h] at this
        · rw [if_neg (lt_irrefl _)] at this
          unfold Det.step
          rwa [if_pos (by omega), hz b h, mul_zero, sub_zero]
      · rename_i h
        rwa [if_neg (by omega)] at this
    · have hik := hu' i hi k (by omega)
      rw [if_pos (by omega)] at hik
      have hik : A i k ∈ γ (u' i k) := by
        unfold Det.step at hik
        rwa [if_neg (lt_irrefl _)] at hik
      have hjk := hu' j (by omega) k (by omega)
      rw [if_neg (by omega)] at hjk
      refine Prog.returns_bind (Prog.returns_lib (C03_mul V hV ⟨_, hq⟩ ⟨_, hik⟩)) fun p hp => ?_
      have hp := hp _ hq _ hik
      refine Prog.returns_bind (Prog.returns_lib (C02_sub V hV ⟨_, hjk⟩ ⟨_, hp⟩)) fun r hr => ?_
      have hr := hr _ hjk _ hp
      refine Prog.returns_pure fun a ha b hb => ?_
      unfold Det.set
      by_cases h : a = j ∧ b = k
      · rw [if_pos h, if_pos (by omega), h.1, h.2]
        unfold Det.step
        rw [if_pos (by omega)]
        exact hr
      · rw [if_neg h]
        have := hu' a ha b hb
        split
        · rwa [if_pos (by omega)] at this
        · rwa [if_neg (by omega)] at this
    · intro a ha b hb
      have := h a ha b hb
      split
      · rwa [if_pos (by omega)] at this
      · rwa [if_neg (by omega)] at this
  · intro a ha b hb
    have := h a ha b hb
    rwa [if_pos (by omega)] at this

/-- The search of the pivot gives a position within the part of the matrix that is left, and no entry of that part is farther
from zero than the entry there: for each of its points there is a point of the other entry which is not larger. -/
theorem C85_pivot (size i : ℕ) (hi : i < size) (u : Det.Mat (Fl f))
    (hu : ∀ a < size, ∀ b < size, (γ (u a b)).Nonempty) :
    V.Returns ((Det.search size i u).run V.P) fun p => i ≤ p.1 ∧ p.1 < size ∧ i ≤ p.2.1 ∧ p.2.1 < size ∧
      ∀ a, i ≤ a → a < size → ∀ b, i ≤ b → b < size → ∀ y ∈ γ (u p.1 p.2.1), ∃ x ∈ γ (u a b), |x| ≤ |y| := by
  -- the visited entries have points not larger than the value so far, the chosen one has none smaller
  let K (s : ℕ × ℕ × Fl f) (S : ℕ → ℕ → Prop) : Prop := i ≤ s.1 ∧ s.1 < size ∧ i ≤ s.2.1 ∧ s.2.1 < size ∧
    ∃ w : ℝ, val s.2.2 = some (w : EReal) ∧ (∀ y ∈ γ (u s.1 s.2.1), w ≤ |y|) ∧ ∀ a b, S a b → ∃ x ∈ γ (u a b), |x| ≤ w
  have hn : ∀ a : Fl f, Num.neg a ≠ none := fun a h => by cases h
  refine (Prog.returns_loop (V := V) (fun a s => K s fun a' b' => i ≤ a' ∧ a' < a ∧ i ≤ b' ∧ b' < size)
    ⟨le_rfl, hi, le_rfl, hi, 0, by rw [val_zero]; rfl, fun y _ => abs_nonneg y, fun a b h => by omega⟩ fun a s ha ha' hs => ?_).mono
    fun p hp => ?_
  · refine (Prog.returns_loop (V := V) (fun b s => K s fun a' b' => i ≤ a' ∧ i ≤ b' ∧ b' < size ∧ (a' < a ∨ (a' = a ∧ b' < b)))
      ?_ fun b s hb hb' hs => ?_).mono fun s hs => ?_
    · obtain ⟨h1, h2, h3, h4, w, h5, h6, h7⟩ := hs
      exact ⟨h1, h2, h3, h4, w, h5, h6, fun a' b' h => h7 a' b' (by omega)⟩
    · obtain ⟨z, l, hz, hzl, ⟨x, hx, hxl⟩, hmin⟩ := abs_least hn V.chk (hu a (by omega) b (by omega))
      refine Prog.returns_bind (Q := fun y => y = z) (Prog.returns_lib (ret_lift ⟨z, by rw [V.P_chk]; exact hz, rfl⟩)) fun y hy => ?_
      subst hy
      obtain ⟨h1, h2, h3, h4, w, h5, h6, h7⟩ := hs
      have hlt : Num.lt s.2.2 y.lower = true ↔ (w : EReal) < l := by rw [lt_eq h5 hzl, decide_eq_true_iff]
      by_cases h : Num.lt s.2.2 y.lower = true
      · rw [if_pos h]
        have hwl : w < l := by exact_mod_cast hlt.1 h
        refine Prog.returns_pure ⟨ha, (by omega : a < size), hb, (by omega : b < size), l, hzl, fun y hy => hmin ⟨y, hy, rfl⟩, fun a' b' h' => ?_⟩
        by_cases e : a' = a ∧ b' = b
        · rw [e.1, e.2]; exact ⟨x, hx, hxl.le⟩
        · obtain ⟨x', hx', hw⟩ := h7 a' b' (by omega)
          exact ⟨x', hx', hw.trans hwl.le⟩
      · rw [if_neg h]
        have hwl : l ≤ w := by
          have := fun h' => h (hlt.2 h')
          exact_mod_cast not_lt.1 this
        refine Prog.returns_pure ⟨h1, h2, h3, h4, w, h5, h6, fun a' b' h' => ?_⟩
        by_cases e : a' = a ∧ b' = b
        · rw [e.1, e.2]; exact ⟨x, hx, hxl.le.trans hwl⟩
        · exact h7 a' b' (by omega)
    · obtain ⟨h1, h2, h3, h4, w, h5, h6, h7⟩ := hs
      exact ⟨h1, h2, h3, h4, w, h5, h6, fun a' b' h => h7 a' b' (by omega)⟩
  · obtain ⟨h1, h2, h3, h4, w, h5, h6, h7⟩ := hp
    refine ⟨h1, h2, h3, h4, fun a ha ha' b hb hb' y hy => ?_⟩
    obtain ⟨x, hx, hw⟩ := h7 a b (by omega)
    exact ⟨x, hx, hw.trans (h6 y hy)⟩

omit hk

/-- The exchange of the columns. -/
theorem C85_columns (size n i : ℕ) (u : Det.Mat (Fl f)) (a b : ℕ) : Det.swapCols size n i u a b =
    if a < size then (if b = n then u a i else if b = i then u a n else u a b) else u a b := by
  unfold Det.swapCols
  induction size generalizing a b with
  | zero => rfl
  | succ k ih =>
    rw [List.range_succ, List.foldl_append]
    simp only [List.foldl_cons, List.foldl_nil, Det.set]
    by_cases h : a = k
    · subst h
      simp only [ih, lt_irrefl, if_false, true_and, Nat.lt_succ_self, if_true]
      by_cases h1 : b = n <;> by_cases h2 : b = i <;> simp_all
    · have e : a < k + 1 ↔ a < k := by omega
      simp only [h, false_and, if_false, ih, e]

/-- The "exchange of the rows" does not touch row `i`. It rotates the entries of row `m` from column `i` on: the last one comes
first. (Exchanging the rows would be `if a = m then u i b else if a = i then u m b else u a b`.) -/
theorem C85_rows (size m i : ℕ) (hi : i < size) (u : Det.Mat (Fl f)) (a b : ℕ) : Det.swapRows size m i u a b =
    if a = m then (if b = i then u m (size - 1) else if i < b ∧ b < size then u m (b - 1) else u m b) else u a b := by
  unfold Det.swapRows
  obtain ⟨k, rfl⟩ : ∃ k, size = i + (k + 1) := ⟨size - i - 1, by omega⟩
  rw [show i + (k + 1) - i = k + 1 by omega]
  clear hi
  induction k generalizing a b with
  | zero =>
    by_cases h : a = m <;> by_cases h1 : b = i <;> simp [Det.set, h, h1]
  | succ k ih =>
    rw [List.range'_1_concat, List.foldl_append]
    simp only [List.foldl_cons, List.foldl_nil, Det.set, ih]
    by_cases h : a = m
    · subst h
      by_cases h1 : b = i
      · subst h1
        simp
      · by_cases h2 : b = i + (k + 1)
        · subst h2
          simp
        · have e : (i < b ∧ b < i + (k + 1)) ↔ (i < b ∧ b < i + (k + 1 + 1)) := by omega
          simp [h1, h2, e]
    · simp [h]

/-- The elimination below the pivot keeps the determinant and makes the entries below the pivot zero. -/
theorem C85_determinant (size i : ℕ) (hi : i < size) (A : ℕ → ℕ → ℝ) (h0 : A i i ≠ 0) :
    (Matrix.of fun a b : Fin size => Det.step i A a b).det = (Matrix.of fun a b : Fin size => A a b).det ∧
    ∀ j, i < j → Det.step i A j i = 0 := by
  refine ⟨Matrix.det_eq_of_forall_row_eq_smul_add_const (fun a => if i < (a : ℕ) then -(A a i / A i i) else 0) ⟨i, hi⟩
    (if_neg (lt_irrefl _)) fun a b => ?_, fun j hj => ?_⟩
  · simp only [Matrix.of_apply]
    unfold Det.step
    split <;> ring
  · unfold Det.step
    rw [if_pos hj]
    field_simp
    ring

/-- A whole round of the main loop, if the pivot is in row `i`: a matrix whose determinant is that of the matrix before, up to
the sign, with zeros below the pivot. Missing from the full claim: pivots in other rows, where it is false (`C85_rows`,
`C63_exchange`). -/
theorem C85_round_partial (hk : V.kind ≠ .exact) (size i n : ℕ) (hin : i ≤ n) (hn : n < size) (u : Det.Mat (Fl f))
    (A : ℕ → ℕ → ℝ) (hu : Det.Encloses size u A) (h0 : A i n ≠ 0) (hz : ∀ k < i, A i k = 0) :
    V.Returns ((Det.eliminate size i (if n ≠ i then Det.swapCols size n i u else u)).run V.P) fun u' =>
      ∃ A', Det.Encloses size u' A' ∧
        |(Matrix.of fun a b : Fin size => A' a b).det| = |(Matrix.of fun a b : Fin size => A a b).det| ∧
        ∀ j, i < j → A' j i = 0 := by
  have hi : i < size := by omega
  let B : ℕ → ℕ → ℝ := fun a b => A a (Equiv.swap n i b)
  have hB : Det.Encloses size (if n ≠ i then Det.swapCols size n i u else u) B := by
    intro a ha b hb
    change A a (Equiv.swap n i b) ∈ _
    split
    · rw [C85_columns, if_pos ha, Equiv.swap_apply_def]
      split
      · exact hu a ha i hi
      · split
        · exact hu a ha n hn
        · exact hu a ha b hb
    · rename_i h
      rw [not_not.1 h, Equiv.swap_self]
      exact hu a ha b hb
  have hB0 : B i i ≠ 0 := by
    change A i (Equiv.swap n i i) ≠ 0
    rwa [Equiv.swap_apply_right]
  refine (C85_eliminate V hk size i hi _ B hB hB0 fun k hk' => ?_).mono fun u' h => ⟨_, h, ?_, (C85_determinant size i hi B hB0).2⟩
  · change A i (Equiv.swap n i k) = 0
    rw [Equiv.swap_apply_of_ne_of_ne (by omega) (by omega)]
    exact hz k hk'
  · rw [(C85_determinant size i hi B hB0).1]
    have e : (Matrix.of fun a b : Fin size => B a b) =
        (Matrix.of fun a b : Fin size => A a b).submatrix id (Equiv.swap (⟨n, hn⟩ : Fin size) ⟨i, hi⟩) := by
      ext a b
      change A a (Equiv.swap n i b) = A a (Equiv.swap (⟨n, hn⟩ : Fin size) ⟨i, hi⟩ b : Fin size)
      rw [Equiv.swap_apply_def, Equiv.swap_apply_def]
      simp only [Fin.ext_iff]
      split
      · rfl
      · split <;> rfl
    rw [e, Matrix.det_permute', abs_mul]
    rcases Int.units_eq_one_or (Equiv.Perm.sign (Equiv.swap (⟨n, hn⟩ : Fin size) ⟨i, hi⟩)) with h | h <;> rw [h] <;> simp

/-! ## The hypotheses can be met -/

/-- The first two steps of the program for size 3: the second row becomes `(0, 1/12, 1/12)`. -/
example (junk : Det.Mat (Fl Fmt.double)) :
    dbl.Returns ((Det.fill 3 junk >>= Det.eliminate 3 0).run dbl.P) fun u =>
      (0 : ℝ) ∈ γ (u 1 0) ∧ (1 / 12 : ℝ) ∈ γ (u 1 1) ∧ (1 / 12 : ℝ) ∈ γ (u 1 2) := by
  refine Prog.returns_bind (C85_hilbert dbl (by decide) 3 junk) fun u hu =>
    (C85_eliminate dbl (by decide) 3 0 (by norm_num) u _ hu (by norm_num) (by intro k h; omega)).mono fun u' h => ⟨?_, ?_, ?_⟩
  · have := h 1 (by norm_num) 0 (by norm_num); norm_num [Det.step] at this; exact this
  · have := h 1 (by norm_num) 1 (by norm_num); norm_num [Det.step] at this ⊢; exact this
  · have := h 1 (by norm_num) 2 (by norm_num); norm_num [Det.step] at this ⊢; exact this

/-- In `([1, 1] [-4, -3]; [2, 9] [0, 5])` the pivot is `[-4, -3]`: its points are at least 3. -/
example : ((Det.search 2 0 (fun i j => if i = 0 then (if j = 0 then litI 1 1 else litI (-4) (-3)) else
      (if j = 0 then litI 2 9 else litI 0 5) : Det.Mat (Fl Fmt.double))).run dbl.P
      (⟨(⟨.near, ()⟩ : FEnv Unit), fun _ => true⟩ : dbl.State)).1.map (fun p => (p.1, p.2.1)) = .ok (0, 1) := by
  decide +kernel

/-- A row of three: `(1, 2, 3)` becomes `(3, 1, 2)`. -/
example (u : Det.Mat (Fl Fmt.double)) : Det.swapRows 3 1 0 u 1 0 = u 1 2 ∧ Det.swapRows 3 1 0 u 1 1 = u 1 0 ∧
    Det.swapRows 3 1 0 u 1 2 = u 1 1 ∧ Det.swapRows 3 1 0 u 0 0 = u 0 0 := by
  refine ⟨?_, ?_, ?_, ?_⟩ <;> rw [C85_rows 3 1 0 (by norm_num)] <;> rfl

/-- Subtracting half of the first row from the second: `(2 4; 1 5)` becomes `(2 4; 0 3)`. -/
example : let A : ℕ → ℕ → ℝ := fun i j => if i = 0 then (if j = 0 then 2 else 4) else (if j = 0 then 1 else 5)
    A 0 0 ≠ 0 ∧ Det.step 0 A 1 1 = 3 := by
  norm_num [Det.step]

/-- With the matrix `(1 2; 3 7)` and the pivot in the second column. -/
example (u : Det.Mat (Fl Fmt.double)) (hu : Det.Encloses 2 u fun i j => if i = 0 then (if j = 0 then 1 else 2) else
      (if j = 0 then 3 else 7)) :
    dbl.Returns ((Det.eliminate 2 0 (if 1 ≠ 0 then Det.swapCols 2 1 0 u else u)).run dbl.P) fun u' =>
      ∃ A', Det.Encloses 2 u' A' ∧ |(Matrix.of fun a b : Fin 2 => A' a b).det| = 1 := by
  refine (C85_round_partial dbl (by decide) 2 0 1 (by norm_num) (by norm_num) u _ hu (by norm_num) (by intro k h; omega)).mono
    fun u' ⟨A', h, e, _⟩ => ⟨A', h, ?_⟩
  rw [e, Matrix.det_fin_two]
  norm_num

end BI
