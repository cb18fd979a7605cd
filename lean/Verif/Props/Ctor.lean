import Verif.Proofs.Conv
import Verif.Props.Arith
/-!
# C36, C42: construction and mixed integer arithmetic

`v.Denotes V D U e`: the conversion of `v` to the base type approximates `e` (in the sense of `D`, `U`) in the directed
modes; see `srcFl_denotes`, `srcInt_denotes`, `srcUnsigned_denotes` for which values of which types this holds.
-/

namespace BI
open Set

variable {T : Type} [Num T] [Val T] [NumLaws T] (V : Env T) {x y : Itv T} {t s : T} {r : ℝ}

/-! ## C36: from numbers of the base type -/

theorem C36_default : γ (ctorDefault : Itv T) = {0} := by
  ext r
  have h := NumLaws.lit (T := T) 0 (by decide)
  simp only [Int.cast_zero] at h
  constructor
  · rintro ⟨l, u, h1, h2, h3, h4⟩
    cases (h.symm.trans h1); cases (h.symm.trans h2)
    exact le_antisymm (by exact_mod_cast h4) (by exact_mod_cast h3)
  · rintro rfl; exact ⟨_, _, h, h, le_rfl, le_rfl⟩

/-- `interval(v)` has both bounds equal to `v`, and is the singleton of its value. -/
theorem C36_num (ht : val t = some (r : EReal)) : ∃ z, ctorT V.C t = .ok z ∧ z.lower = t ∧ z.upper = t ∧ γ z = {r} := by
  refine ⟨⟨t, t⟩, ?_, rfl, rfl, ?_⟩
  · unfold ctorT; rw [V.chk.isNan t _ ht]; rfl
  · ext q
    constructor
    · rintro ⟨l, u, h1, h2, h3, h4⟩
      cases (ht.symm.trans h1); cases (ht.symm.trans h2)
      exact le_antisymm (by exact_mod_cast h4) (by exact_mod_cast h3)
    · rintro rfl; exact ⟨_, _, ht, ht, le_rfl, le_rfl⟩

/-- A policy that sees NaN turns it into the empty interval, or throws if that one is not allowed. -/
theorem C36_nan (hN : V.checks.seesNan = true) (ht : val t = none) : ctorT V.C t = emptyI V.C := by
  unfold ctorT; rw [isNan_true V hN ht]; rfl

theorem C36_nan_caught (hN : V.checks.catchesNan = true) (ht : val t = none) :
    ctorT V.C t = .error .invalidNumber := by
  unfold ctorT Env.C; rw [isNan_catches _ _ hN ht]; rfl

/-- The default policy (`checking_strict`) does neither: `interval<double>(NaN)` is `[NaN, NaN]`. -/
theorem C36_nan_kept : ctorT dbl.C (.nan : Fl Fmt.double) = .ok ⟨.nan, .nan⟩ := by decide +kernel

/-- `interval(l, u)` is `[l, u]` when `l ≤ u`. -/
theorem C36_bounds {a b : EReal} (ht : val t = some a) (hs : val s = some b) (h : a ≤ b) :
    ∃ z, ctorTT V.C t s = .ok z ∧ z.lower = t ∧ z.upper = s ∧ γ z = {q : ℝ | a ≤ (q : EReal) ∧ (q : EReal) ≤ b} := by
  refine ⟨⟨t, s⟩, ?_, rfl, rfl, ?_⟩
  · unfold ctorTT
    rw [V.chk.isNan t _ ht, V.chk.isNan s _ hs, (NumLaws.le_iff t s).2 ⟨a, b, ht, hs, h⟩]; rfl
  · ext q
    constructor
    · rintro ⟨l, u, h1, h2, h3, h4⟩
      cases (ht.symm.trans h1); cases (hs.symm.trans h2)
      exact ⟨h3, h4⟩
    · rintro ⟨h3, h4⟩; exact ⟨_, _, ht, hs, h3, h4⟩

/-- `interval(l, u)` is the empty interval (an exception if that one is not allowed) when `l > u`. -/
theorem C36_bounds_empty {a b : EReal} (ht : val t = some a) (hs : val s = some b) (h : b < a) :
    V.YieldsEmpty (lift (ctorTT V.C t s)) := by
  refine V.yieldsEmpty_lift (congrArg _ ?_)
  have : Num.le t s = false := by
    rw [Bool.eq_false_iff]; intro hc
    obtain ⟨p, q, h1, h2, h3⟩ := (NumLaws.le_iff t s).1 hc
    cases (ht.symm.trans h1); cases (hs.symm.trans h2)
    exact absurd h3 (not_le.2 h)
  unfold ctorTT
  rw [V.chk.isNan t _ ht, V.chk.isNan s _ hs, this]; rfl

/-- NaN as a bound: the empty interval, whether or not the policy sees NaN. Policies that throw on NaN are covered by
`C36_bounds_nan_caught`. -/
theorem C36_bounds_nan (hc : V.checks.catchesNan = false) (h : val t = none ∨ val s = none) :
    V.YieldsEmpty (lift (ctorTT V.C t s)) := by
  refine V.yieldsEmpty_lift (congrArg _ ?_)
  have hle : Num.le t s = false := by
    rw [Bool.eq_false_iff]; intro hc
    obtain ⟨p, q, h1, h2, h3⟩ := (NumLaws.le_iff t s).1 hc
    rcases h with h | h <;> simp_all
  obtain ⟨b, hb⟩ := isNan_answers V.checks V.ndebug hc t
  obtain ⟨b', hb'⟩ := isNan_answers V.checks V.ndebug hc s
  unfold ctorTT Env.C
  rw [hb, hb', hle]
  cases b <;> cases b' <;> rfl

theorem C36_bounds_nan_caught (hN : V.checks.catchesNan = true) (h : val t = none ∨ val s = none) :
    ctorTT V.C t s = .error .invalidNumber := by
  unfold ctorTT Env.C
  by_cases ht : val t = none
  · rw [isNan_catches _ _ hN ht]; rfl
  · obtain ⟨a, ha⟩ := Option.ne_none_iff_exists'.1 ht
    have hs := h.resolve_left ht
    rw [(chkSpec_laws V.checks V.ndebug).isNan t _ ha, isNan_catches _ _ hN hs]; rfl

/-- The default policy, `checking_strict`, does not allow empty intervals: bounds in the wrong order, or NaN as one of two
bounds, are an exception. -/
theorem C36_strict (hc : V.checks = .strict) (h : (∃ a b, val t = some a ∧ val s = some b ∧ b < a) ∨ val t = none ∨ val s = none) :
    V.Throws (lift (ctorTT V.C t s)) .emptyCreated := by
  have key : V.YieldsEmpty (lift (ctorTT V.C t s)) := by
    rcases h with ⟨a, b, h1, h2, h3⟩ | h
    · exact C36_bounds_empty V h1 h2 h3
    · exact C36_bounds_nan V (by rw [hc]; rfl) h
  unfold Env.YieldsEmpty at key
  rwa [hc, if_pos (show ChkSpec.strict.forbidsEmpty = true from rfl)] at key

example := C36_strict dbl (t := Num.lit 2) (s := Num.lit 1) rfl
  (.inl ⟨_, _, NumLaws.lit 2 (by decide), NumLaws.lit 1 (by decide), EReal.coe_lt_coe_iff.2 (by norm_num)⟩)

/-- Copying, and conversion between policies. -/
theorem C36_copy : ctorCopy x = x := rfl

theorem C36_policy (V' : Env T) (hx : V'.Proper x) :
    ((γ x).Nonempty → ctorPol V.C V'.C x = .ok x) ∧ (γ x = ∅ → V.YieldsEmpty (lift (ctorPol V.C V'.C x))) := by
  constructor
  · intro h
    obtain ⟨a, b, ix⟩ := has_of_nonempty h
    have := ix.test V'.chk
    unfold testI at this
    unfold ctorPol; rw [this]; rfl
  · intro h
    rcases hx with h' | ⟨h', hE⟩
    · rw [h] at h'; exact absurd h' not_nonempty_empty
    · refine V.yieldsEmpty_lift (congrArg _ ?_)
      have := h'.test V' hE
      unfold testI at this
      unfold ctorPol; rw [this]; rfl

/-! ## C36: from values of other types -/

theorem C36_src (hV : V.Directed) {v : Src T} (hv : v.Denotes V LeB GeB r) :
    V.Returns (ctorSrc V.P v) fun z => r ∈ γ z := by
  obtain ⟨J, h⟩ := V.lvl hV.kindOk
  have hA := hV.dir du_weak
  refine V.returns_of (ctorSrc_sim h v hv.free) ((ctorSrc_post du_weak hV.neg hv).mono fun z hz => ?_)
  exact hz.encl hA.D_le hA.U_ge rfl

theorem C36_src_smallest (hV : V.Tight) {v : Src T} (hv : v.Denotes V (IsRoundDown T) (IsRoundUp T) r) :
    V.Returns (ctorSrc V.P v) fun z => SmallestEnclosure z {r} := by
  obtain ⟨J, h⟩ := V.lvl hV.kindOk
  exact V.returns_of (ctorSrc_sim h v hv.free) ((ctorSrc_post du_tight hV.neg hv).mono fun z hz =>
    hz.smallest (singleton_nonempty r))

/-- A source that converts to NaN. -/
theorem C36_src_nan (hk : V.kind = .exact → ModeFree T V.lib) {v : Src T} (hv : v.IsNaN) :
    (V.checks.seesNan = true → V.YieldsEmpty (ctorSrc V.P v)) ∧
    (V.checks.catchesNan = true → V.Throws (ctorSrc V.P v) .invalidNumber) := by
  obtain ⟨J, h⟩ := V.lvl hk
  have key : ∀ (k : T → M V.ctl.W (Itv T)) (s : V.State), ∃ c, val c = none ∧ (V.P.cur v.conv >>= k) s = k c s := by
    intro k s
    rw [h.cur]
    obtain ⟨c, h1, h2⟩ := hv (V.ctl.decode s.cw)
    refine ⟨c, h2, ?_⟩
    change M.bind (evalIn V.ctl v.conv) k s = _
    unfold M.bind evalIn
    simp only [h1]
    rfl
  constructor
  · intro hs
    have : ctorSrc V.P v = lift (emptyI V.C) := by
      funext s
      unfold ctorSrc
      obtain ⟨c, hc, e⟩ := key _ s
      rw [e, V.P_chk, isNan_true V hs hc]; rfl
    exact V.yieldsEmpty_lift this
  · intro hs
    have : ctorSrc V.P v = lift (.error .invalidNumber) := by
      funext s
      unfold ctorSrc
      obtain ⟨c, hc, e⟩ := key _ s
      have h1 : V.C.isNan c = .error .invalidNumber := isNan_catches _ _ hs hc
      rw [e, V.P_chk, h1]; rfl
    exact V.throws_lift this

/-- `interval(l, u)`, when the comparison in the source types is right: `le = true ↔ p ≤ q`. -/
theorem C36_src2 (hV : V.Directed) {l u : Src T} {p q : EReal} {le : Bool} (hl : l.Denotes V LeB GeB p)
    (hu : u.Denotes V LeB GeB q) (hle : le = true ↔ p ≤ q) :
    (q < p → V.YieldsEmpty (ctorSrc2 V.P l u le)) ∧
    ({r : ℝ | p ≤ (r : EReal) ∧ (r : EReal) ≤ q}.Nonempty → V.Returns (ctorSrc2 V.P l u le) fun z =>
      ∀ r : ℝ, p ≤ (r : EReal) → (r : EReal) ≤ q → r ∈ γ z) := by
  obtain ⟨J, h⟩ := V.lvl hV.kindOk
  have hA := hV.dir du_weak
  constructor
  · intro hqp
    have : le = false := by rw [Bool.eq_false_iff]; exact fun h => absurd (hle.1 h) (not_le.2 hqp)
    subst this
    exact V.yieldsEmpty_of (ctorSrc2_sim h l u _ ⟨hl.free, hu.free⟩) (ctorSrc2_empty hl hu)
  · intro hne
    have : le = true := hle.2 (by obtain ⟨r, h1, h2⟩ := hne; exact h1.trans h2)
    subst this
    refine V.returns_of (ctorSrc2_sim h l u _ ⟨hl.free, hu.free⟩)
      ((ctorSrc2_post du_weak hV.neg hl hu hne).mono fun z hz => ?_)
    exact fun r h1 h2 => hz.encl hA.D_le hA.U_ge ⟨h1, h2⟩

theorem C36_src2_smallest (hV : V.Tight) {l u : Src T} {p q : EReal} (hl : l.Denotes V (IsRoundDown T) (IsRoundUp T) p)
    (hu : u.Denotes V (IsRoundDown T) (IsRoundUp T) q) (hne : {r : ℝ | p ≤ (r : EReal) ∧ (r : EReal) ≤ q}.Nonempty) :
    V.Returns (ctorSrc2 V.P l u true) fun z => SmallestEnclosure z {r : ℝ | p ≤ (r : EReal) ∧ (r : EReal) ≤ q} := by
  obtain ⟨J, h⟩ := V.lvl hV.kindOk
  exact V.returns_of (ctorSrc2_sim h l u _ ⟨hl.free, hu.free⟩)
    ((ctorSrc2_post du_tight hV.neg hl hu hne).mono fun z hz => hz.smallest hne)

/-- From an interval over another base type: `l` and `u` are its bounds, and its emptiness test said `e`. -/
theorem C36_itv (hV : V.Directed) {l u : Src T} {p q : EReal} (hl : l.Denotes V LeB GeB p) (hu : u.Denotes V LeB GeB q)
    (hne : {r : ℝ | p ≤ (r : EReal) ∧ (r : EReal) ≤ q}.Nonempty) :
    V.Returns (ctorItv V.P (.ok false) l u) fun z => ∀ r : ℝ, p ≤ (r : EReal) → (r : EReal) ≤ q → r ∈ γ z := by
  obtain ⟨J, h⟩ := V.lvl hV.kindOk
  have hA := hV.dir du_weak
  refine V.returns_of (ctorItv_sim h _ l u fun k => ⟨hl.free.2 k, hu.free.2 k⟩)
    (Q := fun z => ∀ r : ℝ, p ≤ (r : EReal) → (r : EReal) ≤ q → r ∈ γ z)
    ((conv2_post du_weak hV.neg hl hu hne).mono fun z hz => ?_)
  exact fun r h1 h2 => hz.encl hA.D_le hA.U_ge ⟨h1, h2⟩

theorem C36_itv_smallest (hV : V.Tight) {l u : Src T} {p q : EReal} (hl : l.Denotes V (IsRoundDown T) (IsRoundUp T) p)
    (hu : u.Denotes V (IsRoundDown T) (IsRoundUp T) q) (hne : {r : ℝ | p ≤ (r : EReal) ∧ (r : EReal) ≤ q}.Nonempty) :
    V.Returns (ctorItv V.P (.ok false) l u) fun z =>
      SmallestEnclosure z {r : ℝ | p ≤ (r : EReal) ∧ (r : EReal) ≤ q} := by
  obtain ⟨J, h⟩ := V.lvl hV.kindOk
  exact V.returns_of (ctorItv_sim h _ l u fun k => ⟨hl.free.2 k, hu.free.2 k⟩)
    ((conv2_post du_tight hV.neg hl hu hne).mono fun z hz => hz.smallest hne)

theorem C36_itv_empty (l u : Src T) : V.YieldsEmpty (ctorItv V.P (.ok true) l u) :=
  V.yieldsEmpty_lift (by unfold ctorItv; rw [V.P_chk]; rfl)

/-- `interval<T>` from `interval<U>`: both over floating-point formats, any formats and any policies. -/
theorem C36_itv_fl {f g : Fmt} (V : Env (Fl g)) (V' : Env (Fl f)) (hk : V.kind ≠ .exact) {x : Itv (Fl f)}
    (hx : (γ x).Nonempty) :
    V.Returns (ctorItv V.P (testI V'.C x) (srcFl x.lower) (srcFl x.upper)) fun z => SmallestEnclosure z (γ x) := by
  obtain ⟨a, b, ix⟩ := has_of_nonempty hx
  rw [ix.test V'.chk, ix.gamma]
  exact C36_itv_smallest V (V.fl_tight hk) (srcFl_denotes V hk ix.lo) (srcFl_denotes V hk ix.up)
    (by rw [ix.gamma] at hx; exact hx)

/-- Construction from a number of another floating-point format. -/
theorem C36_src_fl {f g : Fmt} (V : Env (Fl g)) (hk : V.kind ≠ .exact) {a : Fl f} (ha : val a = some (r : EReal)) :
    V.Returns (ctorSrc V.P (srcFl a)) fun z => SmallestEnclosure z {r} :=
  C36_src_smallest V (V.fl_tight hk) (srcFl_denotes V hk ha)

/-- Construction from a signed integer. Partial: not for the least integer of the type when lower bounds are computed by
negation (`C36_least_int`). -/
theorem C36_src_int_partial {f : Fmt} (V : Env (Fl f)) (hk : V.kind ≠ .exact) (w : ℕ) {n : Int}
    (hn : n ≠ -2 ^ (w - 1)) : V.Returns (ctorSrc V.P (srcInt w n)) fun z => SmallestEnclosure z {(n : ℝ)} :=
  C36_src_smallest V (V.fl_tight hk) (srcInt_denotes V hk w hn)

/-- Construction from an unsigned integer: an enclosure; a sharp one with the policy that switches to rounding downwards
(but not with the other one, which is the default: `C36_unsigned`). -/
theorem C36_src_unsigned {f : Fmt} (V : Env (Fl f)) (hk : V.kind ≠ .exact) (w : ℕ) {n : Int} (h0 : 0 ≤ n) :
    V.Returns (ctorSrc V.P (srcUnsigned w n)) (fun z => (n : ℝ) ∈ γ z) ∧
    (V.kind = .std → V.Returns (ctorSrc V.P (srcUnsigned w n)) fun z => SmallestEnclosure z {(n : ℝ)}) :=
  ⟨C36_src V (V.fl_directed hk) (srcUnsigned_encl V hk w n h0),
    fun hs => C36_src_smallest V (V.fl_tight hk) (srcUnsigned_denotes V hs w n)⟩

/-! ## Violations -/

/-- `interval<double>(1u)` is `[-4294967295, 1]`: the lower bound is computed as `-(double)(-1u)`. The value is
enclosed, but not sharply. -/
theorem C36_unsigned :
    (ctorSrc dbl.P (srcUnsigned 32 1) (⟨(⟨.near, ()⟩ : FEnv Unit), fun _ => true⟩ : dbl.State)).1 =
      .ok ⟨Fl.ofInt .near (-4294967295), Fl.ofInt .near 1⟩ := by decide +kernel

/-- `interval<double>(INT_MIN)` negates `INT_MIN` (no result). -/
theorem C36_least_int :
    (ctorSrc dbl.P (srcInt 32 (-2147483648)) (⟨(⟨.near, ()⟩ : FEnv Unit), fun _ => true⟩ : dbl.State)).1 =
      .error .base := by decide +kernel

/-- `interval<double>(-1, 1u)` compares `-1 <= 1u` in `unsigned` and throws (or is empty), although -1 ≤ 1. -/
theorem C36_mixed_compare :
    leIntUnsigned 32 (-1) 1 = false ∧
    (ctorSrc2 dbl.P (srcInt 32 (-1)) (srcUnsigned 32 1) (leIntUnsigned 32 (-1) 1)
      (⟨(⟨.near, ()⟩ : FEnv Unit), fun _ => true⟩ : dbl.State)).1 = .error .emptyCreated := by decide +kernel

/-! ## C42 -/

section
variable {n : Int}

/-- With an integer that the base type represents, the mixed operators are the operators with that number. -/
theorem C42_same (hk : V.kind = .exact → ModeFree T V.lib) (hn : IntIs n t) :
    addIInt V.P x n = addIT V.P x t ∧ addIntI V.P n x = addTI V.P t x ∧
    subIInt V.P x n = subIT V.P x t ∧ subIntI V.P n x = subTI V.P t x ∧
    mulIInt V.P x n = mulIT V.P x t ∧ mulIntI V.P n x = mulTI V.P t x ∧
    divIInt V.P x n = divIT V.P x t ∧ divIntI V.P n x = divTI V.P t x := by
  obtain ⟨J, h⟩ := V.lvl hk
  have key : ∀ k : T → M V.ctl.W (Itv T), (V.P.cur (fun r => Num.ofInt r n) >>= k) = k t := by
    intro k
    rw [h.cur]
    funext s
    change M.bind (evalIn V.ctl fun r => Num.ofInt r n) k s = _
    unfold M.bind evalIn
    simp only [hn.1]
    rfl
  exact ⟨key _, key _, key _, key _, key _, key _, key _, key _⟩

theorem C42_add (hV : V.Directed) (hn : IntIs n t) (hx : (γ x).Nonempty) :
    V.Returns (addIInt V.P x n) fun z => ∀ a ∈ γ x, a + n ∈ γ z := by
  rw [(C42_same V hV.kindOk hn (x := x)).1]; exact C01_add_num_right V hV hx hn.2

theorem C42_add_left (hV : V.Directed) (hn : IntIs n t) (hx : (γ x).Nonempty) :
    V.Returns (addIntI V.P n x) fun z => ∀ a ∈ γ x, n + a ∈ γ z := by
  rw [(C42_same V hV.kindOk hn (x := x)).2.1]; exact C01_add_num_left V hV hn.2 hx

theorem C42_sub (hV : V.Directed) (hn : IntIs n t) (hx : (γ x).Nonempty) :
    V.Returns (subIInt V.P x n) fun z => ∀ a ∈ γ x, a - n ∈ γ z := by
  rw [(C42_same V hV.kindOk hn (x := x)).2.2.1]; exact C02_sub_num_right V hV hx hn.2

theorem C42_sub_left (hV : V.Directed) (hn : IntIs n t) (hx : (γ x).Nonempty) :
    V.Returns (subIntI V.P n x) fun z => ∀ a ∈ γ x, n - a ∈ γ z := by
  rw [(C42_same V hV.kindOk hn (x := x)).2.2.2.1]; exact C02_sub_num_left V hV hn.2 hx

theorem C42_mul (hV : V.Directed) (hn : IntIs n t) (hx : (γ x).Nonempty) :
    V.Returns (mulIInt V.P x n) fun z => ∀ a ∈ γ x, a * n ∈ γ z := by
  rw [(C42_same V hV.kindOk hn (x := x)).2.2.2.2.1]; exact C03_mul_num_right V hV hx hn.2

theorem C42_mul_left (hV : V.Directed) (hn : IntIs n t) (hx : (γ x).Nonempty) :
    V.Returns (mulIntI V.P n x) fun z => ∀ a ∈ γ x, n * a ∈ γ z := by
  rw [(C42_same V hV.kindOk hn (x := x)).2.2.2.2.2.1]; exact C03_mul_num_left V hV hn.2 hx

theorem C42_div (hV : V.Directed) (hn : IntIs n t) (hx : (γ x).Nonempty) (h0 : n ≠ 0) :
    V.Returns (divIInt V.P x n) fun z => ∀ a ∈ γ x, a / n ∈ γ z := by
  rw [(C42_same V hV.kindOk hn (x := x)).2.2.2.2.2.2.1]
  exact C04_div_num_right V hV hx hn.2 (by exact_mod_cast h0)

theorem C42_div_zero (hV : V.Directed) (hn : IntIs 0 t) (hx : (γ x).Nonempty) :
    V.YieldsEmpty (divIInt V.P x 0) := by
  rw [(C42_same V hV.kindOk hn (x := x)).2.2.2.2.2.2.1]
  refine C04_div_zero_num_right V hV hx ?_
  have := hn.2
  simpa using this

/-- With the same restriction as `C04_div_partial`; see `C42_violated`. -/
theorem C42_div_left_partial (hV : V.Directed) (hn : IntIs n t) (hx : ∃ b ∈ γ x, b ≠ 0) (hi : InfBase T ∨ 0 ∉ γ x) :
    V.Returns (divIntI V.P n x) fun z => ∀ a ∈ γ x, a ≠ 0 → n / a ∈ γ z := by
  rw [(C42_same V hV.kindOk hn (x := x)).2.2.2.2.2.2.2]; exact C04_div_num_left_partial V hV hn.2 hx hi

/-- Every integer of magnitude at most `2^p` is represented by a format of precision `p`: every `int` by `double`. -/
theorem C42_represented {f : Fmt} {n : Int} (h : |n| < 2 ^ f.p) : IntIs n (Fl.ofInt .near n : Fl f) := intIs_fl (rep_int h)

/-- The condition matters: `interval<float>(0) + 16777217` is `[16777216, 16777216]` in rounding to nearest. -/
theorem C42_not_represented :
    (addIInt flt.P (litI 0 0) 16777217 (⟨(0x037f : BitVec 16), fun _ => true⟩ : flt.State)).1 =
      .ok ⟨Fl.ofInt .near 16777216, Fl.ofInt .near 16777216⟩ := by decide +kernel
end

/-! ## The hypotheses can be met -/

/-- `interval<float>(double 2^24+1)`. -/
example : flt.Returns (ctorSrc flt.P (srcFl (Fl.ofInt .near 16777217 : Fl Fmt.double))) fun z =>
    SmallestEnclosure z {((16777217 : Int) : ℝ)} :=
  C36_src_fl flt (by decide) (intIs_fl (rep_int (by decide))).2

/-- `interval<float>(double NaN)` with `checking_catch_nan`. -/
example : flt.Throws (ctorSrc flt.P (srcFl (.nan : Fl Fmt.double))) .invalidNumber :=
  (C36_src_nan flt flt_directed.kindOk fun _ => ⟨.nan, rfl, rfl⟩).2 (by decide)

/-- `interval<double>(3, 5)`. -/
example : dbl.Returns (ctorSrc2 dbl.P (srcInt 32 3) (srcInt 32 5) (decide ((3 : Int) ≤ 5))) fun z => (4 : ℝ) ∈ γ z :=
  ((C36_src2 dbl dbl_directed (srcInt_denotes dbl (by decide) 32 (by decide)).weaken
    (srcInt_denotes dbl (by decide) 32 (by decide)).weaken
    (by simp only [decide_eq_true_eq, EReal.coe_le_coe_iff]; norm_num)).2
    ⟨4, EReal.coe_le_coe_iff.2 (by norm_num), EReal.coe_le_coe_iff.2 (by norm_num)⟩).mono fun z hz =>
      hz 4 (EReal.coe_le_coe_iff.2 (by norm_num)) (EReal.coe_le_coe_iff.2 (by norm_num))

/-- `interval<double>(5, 3)` throws. -/
example : dbl.Throws (ctorSrc2 dbl.P (srcInt 32 5) (srcInt 32 3) (decide ((5 : Int) ≤ 3))) .emptyCreated :=
  (C36_src2 dbl dbl_directed (srcInt_denotes dbl (by decide) 32 (by decide)).weaken
    (srcInt_denotes dbl (by decide) 32 (by decide)).weaken
    (by simp only [decide_eq_true_eq, EReal.coe_le_coe_iff]; norm_num)).1 (EReal.coe_lt_coe_iff.2 (by norm_num))

example : ratEnv.Returns (ctorSrc ratEnv.P (srcInt 32 (-7))) fun z => ((-7 : Int) : ℝ) ∈ γ z :=
  C36_src ratEnv ratEnv_directed (srcRat_denotes ratEnv rfl 32 (-7) _ _)

/-- `interval<float>` from `interval<double>`. -/
example : flt.Returns (ctorItv flt.P (testI dbl.C (litI 1 2)) (srcFl (litI 1 2 : Itv (Fl Fmt.double)).lower)
    (srcFl (litI 1 2 : Itv (Fl Fmt.double)).upper)) fun z => SmallestEnclosure z (γ (litI 1 2 : Itv (Fl Fmt.double))) :=
  C36_itv_fl flt dbl (by decide) ne_lit

example : dbl.Returns (mulIInt dbl.P (litI 1 2) 123456789) fun z => (1.5 : ℝ) * (123456789 : Int) ∈ γ z :=
  (C42_mul dbl dbl_directed (C42_represented (by decide)) ne_lit).mono fun z hz => hz 1.5 in_lit

example : dbl.Returns (divIntI dbl.P 10 (litI (-1) 4)) fun z => ((10 : Int) : ℝ) / 4 ∈ γ z :=
  (C42_div_left_partial dbl dbl_directed (C42_represented (by decide)) ⟨1, in_lit, by norm_num⟩ (.inl fl_inf)).mono
    fun z hz => hz 4 in_lit (by norm_num)

end BI
