import Verif.Model.Det
import Verif.Props.Mode
import Verif.Proofs.Conv
import Verif.Proofs.Instances
/-!
# C63: the program of test/det.cpp gives the same matrix with every configuration

The test runs a Gaussian elimination with four interval types (rounding by switching or in one mode; protected, or
unprotected under a rounding object) and compares the resulting matrices for one size.
-/

namespace BI

/-! ## The calls a composed program may make -/

theorem Prog.All.bind {T : Type} [Num T] {q : Bool → {β : Type} → Call T β → Prop} {i : Bool} {α β : Type} {a : Prog T α}
    (ha : a.All q i) {f : α → Prog T β} (hf : ∀ x, (f x).All q i) : (a.bind f).All q i := by
  induction a with
  | ret a => exact hf a
  | fail e => trivial
  | call c k ih => exact ⟨ha.1, fun b => ih b (ha.2 b) hf⟩
  | region body k _ ih => exact ⟨ha.1, fun b => ih b (ha.2 b) hf⟩

theorem Prog.All.pure {T : Type} [Num T] {q : Bool → {β : Type} → Call T β → Prop} {i : Bool} {α : Type} (a : α) :
    (Pure.pure a : Prog T α).All q i := trivial

theorem Prog.All.loop {T : Type} [Num T] {q : Bool → {β : Type} → Call T β → Prop} {i : Bool} {σ : Type}
    {f : ℕ → σ → Prog T σ} (hf : ∀ j s, (f j s).All q i) (lo n : ℕ) (s : σ) : (Prog.loop f lo n s).All q i := by
  induction n generalizing lo s with
  | zero => trivial
  | succ n ih => exact (hf lo s).bind fun s => ih _ s

private theorem bind_assoc' {W α β γ : Type} (c : M W γ) (k : γ → M W α) (g : α → M W β) (s : St W) :
    ((c >>= k) >>= g) s = (c >>= fun x => k x >>= g) s := by
  change M.bind (M.bind c k) g s = M.bind c (fun x => M.bind (k x) g) s
  unfold M.bind
  rcases c s with ⟨r, s'⟩
  cases r <;> rfl

private theorem bind_congr' {W β γ : Type} (c : M W γ) {k k' : γ → M W β} (h : ∀ x s, k x s = k' x s) (s : St W) :
    (c >>= k) s = (c >>= k') s := by
  change M.bind c k s = M.bind c k' s
  unfold M.bind
  rcases c s with ⟨r, s'⟩
  cases r with
  | error e => rfl
  | ok x => exact h x s'

/-- Executing the composition of two programs is executing one after the other. -/
theorem Prog.run_bind {T : Type} [Num T] {W : Type} (P : Policies (M W) T) {α β : Type} (a : Prog T α) (f : α → Prog T β)
    (s : St W) : (a.bind f).run P s = (a.run P >>= fun x => (f x).run P) s := by
  induction a generalizing s with
  | ret a => rfl
  | fail e => rfl
  | call c k ih =>
    exact (bind_congr' _ (fun b s => ih b f s) s).trans (bind_assoc' _ _ _ s).symm
  | region body k _ ih =>
    exact (bind_congr' _ (fun b s => ih b f s) s).trans (bind_assoc' _ _ _ s).symm

/-- What `det` calls: the constructor from positive integers, divisions, multiplications, subtractions and tests. -/
theorem Det.det_all {T : Type} [Num T] {q : Bool → {β : Type} → Call T β → Prop} {i : Bool}
    (h1 : ∀ n : Int, 0 < n → q i (.ctorSrc (srcInt 32 n))) (h2 : ∀ x y, q i (.divII x y)) (h3 : ∀ x y, q i (.mulII x y))
    (h4 : ∀ x y, q i (.subII x y)) (h5 : ∀ {α : Type} (f : Checking T → Res α), q i (.chk f)) (size : ℕ) (junk : Det.Mat T) :
    (Det.det size junk).All q i := by
  have lib : ∀ {β : Type} {c : Call T β}, q i c → (Prog.lib c).All q i := fun h => ⟨h, fun _ => trivial⟩
  have col : ∀ n k u, (Det.columns size k n u).All q i := by
    intro n
    induction n with
    | zero => intro k u; trivial
    | succ n ih =>
      intro k u
      refine Prog.All.bind (Prog.All.loop (fun a s => Prog.All.loop (fun b s => Prog.All.bind (lib (h5 _)) fun x => ?_) _ _ _)
        _ _ _) fun p => Prog.All.bind (Prog.All.loop (fun j u => Prog.All.bind (lib (h2 _ _)) fun f => Prog.All.loop (fun k u =>
          Prog.All.bind (lib (h3 _ _)) fun q => Prog.All.bind (lib (h4 _ _)) fun r => Prog.All.pure _) _ _ _) _ _ _) fun u =>
        Prog.All.bind (lib (h5 _)) fun z => ?_
      · split <;> trivial
      · split
        · trivial
        · exact ih _ _
  exact Prog.All.bind (Prog.All.loop (fun i u => Prog.All.loop (fun j u => Prog.All.bind (lib (h1 _ (by omega))) fun a =>
    Prog.All.bind (lib (h1 _ (by omega))) fun b => Prog.All.bind (lib (h2 _ _)) fun q => Prog.All.pure _) _ _ _) _ _ _) fun u => col _ _ _

variable {f : Fmt}

/-! ## C63 -/

/-- The elimination of test/det.cpp, for every size, gives the same matrix (or the same exception) with the four interval
types of the test, whatever the rounding direction in force and the order in which arguments are evaluated, and leaves the
control word as it was. -/
theorem C63_same (V V' : Env (Fl f)) (hV : V.kind = .std) (hV' : V'.kind = .opp) (hc : V.checks = V'.checks)
    (hn : V.ndebug = V'.ndebug) (size : ℕ) (junk : Det.Mat (Fl f)) (s t : V.State) (hs : V.Valid s) (ht : V.Valid t)
    (s' t' : V'.State) (hs' : V'.Valid s') (ht' : V'.Valid t') :
    let p := Det.det size junk
    let r := (p.run V.P s).1
    (V.P.rnd.scope (p.run V.P.unprot) t).1 = r ∧ (p.run V'.P s').1 = r ∧ (V'.P.rnd.scope (p.run V'.P.unprot) t').1 = r ∧
    (p.run V.P s).2.cw = s.cw ∧ (V.P.rnd.scope (p.run V.P.unprot) t).2.cw = t.cw ∧
    (p.run V'.P s').2.cw = s'.cw ∧ (V'.P.rnd.scope (p.run V'.P.unprot) t').2.cw = t'.cw := by
  have hk : V.kind ≠ .exact := by rw [hV]; intro h; cases h
  have hk' : V'.kind ≠ .exact := by rw [hV']; intro h; cases h
  have opp : ∀ n : Int, 0 < n → (srcInt 32 n : Src (Fl f)).Opposite := fun n h =>
    srcInt_opposite 32 (by omega) (by norm_num; omega)
  intro p r
  have a0 : ∀ i, p.All (fun _ => Call.Arithmetic) i := fun i =>
    Det.det_all opp (fun _ _ => trivial) (fun _ _ => trivial) (fun _ _ => trivial) (fun _ => trivial) size junk
  have a1 : ∀ i, p.All (fun _ => V.ModeFree false) i := fun i =>
    Det.det_all (fun n h => (srcInt_denotes V hk 32 (by norm_num; omega)).free) (fun _ _ => trivial) (fun _ _ => trivial) (fun _ _ => trivial)
      (fun _ => trivial) size junk
  have a2 : ∀ i, p.All (fun _ => V'.ModeFree false) i := fun i =>
    Det.det_all (fun n h => (srcInt_denotes V' hk' 32 (by norm_num; omega)).free) (fun _ _ => trivial) (fun _ _ => trivial) (fun _ _ => trivial)
      (fun _ => trivial) size junk
  have b1 : p.All (fun i => V.ModeFree i) false :=
    Det.det_all (fun n h => (srcInt_denotes V hk 32 (by norm_num; omega)).free) (fun _ _ => trivial) (fun _ _ => trivial) (fun _ _ => trivial)
      (fun _ => trivial) size junk
  have b2 : p.All (fun i => V'.ModeFree i) false :=
    Det.det_all (fun n h => (srcInt_denotes V' hk' 32 (by norm_num; omega)).free) (fun _ _ => trivial) (fun _ _ => trivial) (fun _ _ => trivial)
      (fun _ => trivial) size junk
  have u1 := C07_unprotected_partial V (fun h => absurd h hk) p (a1 _)
  have u2 := C07_unprotected_partial V' (fun h => absurd h hk') p (a2 _)
  have e1 := C07_any_mode_partial V (fun h => absurd h hk) p b1 t s ht hs
  have e2 := C07_any_mode_partial V' (fun h => absurd h hk') p b2 t' s' ht' hs'
  have e := C38_same V V' hV hV' hc hn p (a0 _) b1 b2 s hs s' hs'
  exact ⟨(u1 t ht).1.trans e1, e.symm, (u2 t' ht').1.trans (e2.trans e.symm), (u1 s hs).2.2, (u1 t ht).2.1, (u2 s' hs').2.2,
    (u2 t' ht').2.1⟩

/-! ## What the program computes -/

/-- The four entries of a matrix with two rows and columns, after a run of `interval<double>`. -/
noncomputable def Det.entries (p : Prog (Fl Fmt.double) (Det.Mat (Fl Fmt.double))) : Res (List (Itv (Fl Fmt.double))) :=
  ((p.run dbl.P (⟨(⟨.near, ()⟩ : FEnv Unit), fun _ => true⟩ : dbl.State)).1).map fun u => [u 0 0, u 0 1, u 1 0, u 1 1]

/-- The elimination does not keep the determinant, not even up to the sign: the exchange of rows (det.cpp 37-42) exchanges
entries of one row instead. For `(1 2; 3 1)`, whose determinant is -5, it ends with `(1 2; 0 1)` (the zero is `[-0, +0]`). -/
theorem C63_exchange :
    let u : Det.Mat (Fl Fmt.double) := fun i j => if i = 0 then (if j = 0 then litI 1 1 else litI 2 2) else
      (if j = 0 then litI 3 3 else litI 1 1)
    Det.entries (Det.columns 2 0 1 u) = .ok [litI 1 1, litI 2 2, ⟨.zero true, .zero false⟩, litI 1 1] := by
  decide +kernel

/-! ## The hypotheses can be met -/

/-- With three rows and columns the program returns a matrix, and rounding is involved. -/
example : (match Det.entries (Det.det 3 fun _ _ => litI 7 7) with
    | .ok [_, _, _, x] => Num.lt x.lower x.upper | _ => false) = true := by
  decide +kernel

end BI
