import Verif.Model.IoEx
import Verif.Spec.Read
import Verif.Props.Ctor
import Verif.Props.Io
import Verif.Props.Utility
import Verif.Props.Empty
/-!
# C53: reading intervals (examples/io.cpp)

`num` stands for the extraction of a number: it is only assumed to fail at the end of the text.
-/

namespace BI
open Set

private theorem isSpace_iff (c : Char) : isSpace c = true ↔ (c.toNat = 32 ∨ (9 ≤ c.toNat ∧ c.toNat ≤ 13)) := by
  unfold isSpace
  simp only [Bool.or_eq_true, beq_iff_eq, ← Char.toNat_inj]
  have h1 : (' ' : Char).toNat = 32 := rfl
  have h2 : ('\t' : Char).toNat = 9 := rfl
  have h3 : ('\n' : Char).toNat = 10 := rfl
  have h4 : ('\x0b' : Char).toNat = 11 := rfl
  have h5 : ('\x0c' : Char).toNat = 12 := rfl
  have h6 : ('\r' : Char).toNat = 13 := rfl
  omega

private theorem takeWhile_space (t : List Char) : ∀ c ∈ t.takeWhile isSpace, isSpace c = true := by
  induction t with
  | nil => intro c h; cases h
  | cons d t ih =>
    intro c h
    rw [List.takeWhile_cons] at h
    cases e : isSpace d with
    | false => rw [e] at h; cases h
    | true =>
      rw [e] at h
      rcases List.mem_cons.1 h with rfl | h
      · exact e
      · exact ih c h

private theorem sk_iff (t r : List Char) : Sk t r ↔ t.dropWhile isSpace = r := by
  constructor
  · rintro ⟨w, rfl, h1, h2⟩
    rw [List.dropWhile_append_of_pos fun c hc => (isSpace_iff c).2 (h1 c hc)]
    cases r with
    | nil => rfl
    | cons d r =>
      have : isSpace d = false := by
        rw [Bool.eq_false_iff]; intro h; exact h2 d rfl ((isSpace_iff d).1 h)
      simp [List.dropWhile, this]
  · rintro rfl
    refine ⟨t.takeWhile isSpace, (List.takeWhile_append_dropWhile).symm, fun c hc => (isSpace_iff c).1 (takeWhile_space _ c hc), ?_⟩
    intro c hc h
    have h := (isSpace_iff c).2 h
    cases e : t.dropWhile isSpace with
    | nil => rw [e] at hc; cases hc
    | cons d r =>
      rw [e] at hc
      cases hc
      have := List.head_dropWhile_not isSpace (l := t) (by rw [e]; simp)
      simp only [e, List.head_cons] at this
      rw [this] at h; cases h

section
variable {T : Type} [Num T] {num : List Char → Option (T × List Char)} {t : List Char} {C : Checking T}

/-- The reader, on a stream in a good state, spelled out. -/
private theorem readI_eq (C : Checking T) (num : List Char → Option (T × List Char)) (t : List Char) :
    readI C num ⟨t, true⟩ =
      match t.dropWhile isSpace with
      | [] => (.error .ub, ⟨[], false⟩)
      | c :: t1 =>
        if c = '[' then
          match t1.dropWhile isSpace with
          | [] => (.error .ub, ⟨[], false⟩)
          | d :: t2 =>
            match num (d :: t2) with
            | none => (emptyI C, ⟨d :: t2, false⟩)
            | some (l, t2') =>
              match t2'.dropWhile isSpace with
              | [] => (emptyI C, ⟨[], false⟩)
              | e :: t3 =>
                if e = ',' then
                  match t3.dropWhile isSpace with
                  | [] => (emptyI C, ⟨[], false⟩)
                  | g :: t4 =>
                    match num (g :: t4) with
                    | none => (emptyI C, ⟨g :: t4, false⟩)
                    | some (u, t4') =>
                      match t4'.dropWhile isSpace with
                      | [] => (emptyI C, ⟨[], false⟩)
                      | k :: t5 => if k = ']' then (ctorTT C l u, ⟨t5, true⟩) else (emptyI C, ⟨t5, false⟩)
                else if e = ']' then (ctorTT C l l, ⟨t3, true⟩) else (emptyI C, ⟨t3, false⟩)
        else
          match num (c :: t1) with
          | none => (emptyI C, ⟨c :: t1, false⟩)
          | some (l, t2) => (ctorTT C l l, ⟨t2, true⟩) := by
  have hd : ∀ (t t1 : List Char) (c : Char), t.dropWhile isSpace = c :: t1 → isSpace c = false := by
    intro t t1 c h
    have := List.head_dropWhile_not isSpace (l := t) (by rw [h]; simp)
    simpa [h] using this
  unfold readI
  cases h1 : t.dropWhile isSpace with
  | nil => simp [getC, getN, putback, h1]
  | cons c t1 =>
    by_cases hc : c = '['
    · subst hc
      cases h2 : t1.dropWhile isSpace with
      | nil => simp [getC, getN, h1, h2]
      | cons d t2 =>
        cases h3 : num (d :: t2) with
        | none => simp [getC, getN, h1, h2, h3]
        | some p =>
          obtain ⟨l, t2'⟩ := p
          cases h4 : t2'.dropWhile isSpace with
          | nil => simp [getC, getN, h1, h2, h3, h4]
          | cons e t3 =>
            by_cases he : e = ','
            · subst he
              cases h5 : t3.dropWhile isSpace with
              | nil => simp [getC, getN, h1, h2, h3, h4, h5]
              | cons g t4 =>
                cases h6 : num (g :: t4) with
                | none => simp [getC, getN, h1, h2, h3, h4, h5, h6]
                | some p =>
                  obtain ⟨u, t4'⟩ := p
                  cases h7 : t4'.dropWhile isSpace with
                  | nil => simp [getC, getN, h1, h2, h3, h4, h5, h6, h7]
                  | cons k t5 =>
                    by_cases hk : k = ']' <;> simp [getC, getN, h1, h2, h3, h4, h5, h6, h7, hk]
            · by_cases hk : e = ']' <;> simp [getC, getN, h1, h2, h3, h4, he, hk]
    · have := hd _ _ _ h1
      cases h3 : num (c :: t1) with
      | none => simp [getC, getN, putback, h1, hc, h3, this]
      | some p => simp [getC, getN, putback, h1, hc, h3, this]

/-- The reader succeeds on exactly the texts of the grammar, consumes exactly them, and builds the interval from the two numbers
written. -/
theorem C53_grammar (hnum : num [] = none) (t r : List Char) (res : Res (Itv T)) :
    readI C num ⟨t, true⟩ = (res, ⟨r, true⟩) ↔ ∃ l u, Parses num t l u r ∧ res = ctorTT C l u := by
  constructor
  · intro h
    rw [readI_eq] at h
    split at h
    · cases h
    rename_i c t1 h1
    split at h
    · rename_i hc; subst hc
      split at h
      · cases h
      rename_i d t2 h2
      split at h
      · cases h
      rename_i l t2' h3
      split at h
      · cases h
      rename_i e t3 h4
      split at h
      · rename_i he; subst he
        split at h
        · cases h
        rename_i g t4 h5
        split at h
        · cases h
        rename_i u t4' h6
        split at h
        · cases h
        rename_i k t5 h7
        split at h
        · rename_i hk; subst hk
          cases h
          exact ⟨l, u, .two ((sk_iff _ _).2 h1) ((sk_iff _ _).2 h2) h3 ((sk_iff _ _).2 h4) ((sk_iff _ _).2 h5) h6 ((sk_iff _ _).2 h7), rfl⟩
        · cases h
      · split at h
        · rename_i hk; subst hk
          cases h
          exact ⟨l, l, .one ((sk_iff _ _).2 h1) ((sk_iff _ _).2 h2) h3 ((sk_iff _ _).2 h4), rfl⟩
        · cases h
    · rename_i hc
      split at h
      · cases h
      rename_i l t2 h3
      cases h
      exact ⟨l, l, .bare ((sk_iff _ _).2 h1) (by simpa using hc) h3, rfl⟩
  · rintro ⟨l, u, h, rfl⟩
    rw [readI_eq]
    cases h with
    | two h1 h2 h3 h4 h5 h6 h7 =>
      rename_i t1 t2 t2' t3 t4 t4'
      rw [sk_iff] at h1 h2 h4 h5 h7
      cases t2 with
      | nil => rw [hnum] at h3; cases h3
      | cons d t2 =>
        cases t4 with
        | nil => rw [hnum] at h6; cases h6
        | cons g t4 => simp [h1, h2, h3, h4, h5, h6, h7]
    | one h1 h2 h3 h4 =>
      rename_i t1 t2 t2'
      rw [sk_iff] at h1 h2 h4
      cases t2 with
      | nil => rw [hnum] at h3; cases h3
      | cons d t2 => simp [h1, h2, h3, h4]
    | bare h1 h2 h3 =>
      rename_i t1
      rw [sk_iff] at h1
      cases t1 with
      | nil => rw [hnum] at h3; cases h3
      | cons d t2 =>
        have : d ≠ '[' := by simpa using h2
        simp [h1, this, h3]

private theorem reject (hnum : num [] = none) (h : ¬ ∃ l u r, Parses num t l u r) :
    (readI C num ⟨t, true⟩).2.good = false ∧
    (Cut t → (readI C num ⟨t, true⟩).1 = .error .ub) ∧ (¬ Cut t → (readI C num ⟨t, true⟩).1 = emptyI C) := by
  have hg : (readI C num ⟨t, true⟩).2.good = false := by
    cases e : (readI C num ⟨t, true⟩).2.good with
    | false => rfl
    | true =>
      exfalso
      have : readI C num ⟨t, true⟩ = ((readI C num ⟨t, true⟩).1, ⟨(readI C num ⟨t, true⟩).2.rest, true⟩) :=
        Prod.ext rfl (by rcases hr : (readI C num ⟨t, true⟩).2 with ⟨r, g⟩; rw [hr] at e; cases e; rfl)
      obtain ⟨l, u, hp, _⟩ := (C53_grammar hnum _ _ _).1 this
      exact h ⟨l, u, _, hp⟩
  refine ⟨hg, ?_, ?_⟩
  · rintro (h | ⟨t1, h1, h2⟩)
    · rw [sk_iff] at h; rw [readI_eq, h]
    · rw [sk_iff] at h1 h2; rw [readI_eq, h1]; simp [h2]
  · intro hc
    rw [readI_eq] at hg ⊢
    split
    · rename_i h1; exact absurd (.inl ((sk_iff _ _).2 h1)) hc
    rename_i c t1 h1
    simp only [h1] at hg
    split
    · rename_i h2; subst h2
      simp only [if_true] at hg
      split
      · rename_i h3; exact absurd (.inr ⟨t1, (sk_iff _ _).2 h1, (sk_iff _ _).2 h3⟩) hc
      rename_i d t2 h2
      simp only [h2] at hg
      split
      · rfl
      rename_i l t2' h3
      simp only [h3] at hg
      split
      · rfl
      rename_i e t3 h4
      simp only [h4] at hg
      split
      · rename_i he
        simp only [he, if_true] at hg
        split
        · rfl
        rename_i g t4 h5
        simp only [h5] at hg
        split
        · rfl
        rename_i u t4' h6
        simp only [h6] at hg
        split
        · rfl
        rename_i k t5 h7
        simp only [h7] at hg
        split
        · rename_i hk; simp [hk] at hg
        · rfl
      · rename_i he
        simp only [he, if_false] at hg
        split
        · rename_i hk; simp [hk] at hg
        · rfl
    · rename_i h2
      simp only [h2, if_false] at hg
      split
      · rfl
      · rename_i l t2 h3; simp [h3] at hg

/-- Reading from a stream that has failed already is undefined too. -/
theorem C53_failed (t : List Char) : readI C num ⟨t, false⟩ = (.error .ub, ⟨t, false⟩) := by
  simp [readI, getC, getN, putback]
end

section
variable {T : Type} [Num T] [Val T] [NumLaws T] (V : Env T) {x : Itv T} {num : List Char → Option (T × List Char)}

/-- The texts outside the grammar: the stream ends up in a failed state. The object becomes the empty interval (an exception if the
policy has none), except that reading is undefined (a variable without value is copied) if the text ends where the first number
should be. -/
theorem C53_reject (hnum : num [] = none) {t : List Char} (h : ¬ ∃ l u r, Parses num t l u r) :
    (readI V.C num ⟨t, true⟩).2.good = false ∧ (Cut t → (readI V.C num ⟨t, true⟩).1 = .error .ub) ∧
    (¬ Cut t → V.YieldsEmpty (lift (readI V.C num ⟨t, true⟩).1)) := by
  obtain ⟨h1, h2, h3⟩ := reject (C := V.C) hnum h
  exact ⟨h1, h2, fun hc => V.yieldsEmpty_lift (by rw [h3 hc])⟩

/-- `num` reads what `put` writes, in front of a comma or a bracket. -/
structure Inverse (put : T → String) (num : List Char → Option (T × List Char)) (v : T) : Prop where
  read : ∀ c r, c = ',' ∨ c = ']' → num ((put v).toList ++ c :: r) = some (v, c :: r)
  visible : ∀ r, Sk ((put v).toList ++ r) ((put v).toList ++ r)

private theorem sk_self {c : Char} (r : List Char) (h : isSpace c = false) : Sk (c :: r) (c :: r) := by
  rw [sk_iff]; simp [List.dropWhile, h]

/-- What io.hpp or the style `io_std` writes is read back as the same interval, whatever comes before and after. -/
theorem C53_std (hnum : num [] = none) (hx : (γ x).Nonempty) {put : T → String} (hl : Inverse put num x.lower)
    (hu : Inverse put num x.upper) :
    ∃ t, (∀ s, ioStd V.C (.text put) x s = .ok (s ++ t)) ∧ (∀ s, outI V.C (.text put) x s = .ok (s ++ t)) ∧
      ∀ r, readI V.C num ⟨t.toList ++ r, true⟩ = (.ok x, ⟨r, true⟩) := by
  obtain ⟨a, b, ix⟩ := has_of_nonempty hx
  have key : ∀ s, outI V.C (.text put) x s = .ok (s ++ ("[" ++ put x.lower ++ "," ++ put x.upper ++ "]")) := fun s => by
    rw [(C44_text V (.inl hx) put s).1 hx]; simp only [String.append_assoc]
  refine ⟨_, fun s => key s, key, fun r => ?_⟩
  obtain ⟨z, h1, h2, h3, -⟩ := C36_bounds V ix.lo ix.up ix.le
  have : z = x := by cases z; cases x; cases h2; cases h3; rfl
  subst this
  refine (C53_grammar hnum _ _ _).2 ⟨z.lower, z.upper, ?_, h1.symm⟩
  have e : ("[" ++ put z.lower ++ "," ++ put z.upper ++ "]").toList ++ r =
      '[' :: ((put z.lower).toList ++ ',' :: ((put z.upper).toList ++ ']' :: r)) := by
    simp [String.toList_append]
  rw [e]
  exact .two (sk_self _ rfl) (hl.visible _) (hl.read _ _ (.inl rfl)) (sk_self _ rfl) (hu.visible _) (hu.read _ _ (.inr rfl)) (sk_self _ rfl)

/-- What the style `io_sngl` writes is read back as the same set (the two zeros may be confused). -/
theorem C53_sngl (hnum : num [] = none) (hx : (γ x).Nonempty) {put : T → String} (hl : Inverse put num x.lower)
    (hu : Inverse put num x.upper) :
    ∃ t, (∀ s, ioSngl V.C (.text put) x s = .ok (s ++ t)) ∧
      ∀ r, ∃ z, readI V.C num ⟨t.toList ++ r, true⟩ = (.ok z, ⟨r, true⟩) ∧ γ z = γ x := by
  classical
  by_cases hs : ∃ q, γ x = {q}
  · have e1 := C22_singleton V (.inl hx)
    rw [decide_eq_true hs] at e1
    have e0 : isEmptyI V.C x = .ok false := by
      obtain ⟨a, b, ix⟩ := has_of_nonempty hx
      exact ix.test V.chk
    refine ⟨"[" ++ put x.lower ++ "]", fun s => ?_, fun r => ?_⟩
    · unfold ioSngl
      rw [e0, e1]
      change Except.ok ((s.push '[' ++ put x.lower).push ']') = _
      congr 1
      apply String.toList_injective
      simp [String.toList_append]
    · obtain ⟨a, b, ix⟩ := has_of_nonempty hx
      obtain ⟨q, hq⟩ := hs
      have hab : a = b := by
        have : Num.eq x.lower x.upper = true := by
          unfold singleton at e1
          rw [e0] at e1
          exact Except.ok.inj e1
        obtain ⟨y, h1, h2⟩ := (NumLaws.eq_iff _ _).1 this
        have := ix.lo; rw [h1] at this; have h3 := ix.up; rw [h2] at h3
        rw [← Option.some.inj this, ← Option.some.inj h3]
      obtain ⟨z, h1, h2, h3, h4⟩ := C36_bounds V ix.lo ix.lo le_rfl
      refine ⟨z, (C53_grammar hnum _ _ _).2 ⟨x.lower, x.lower, ?_, h1.symm⟩, ?_⟩
      · have e : ("[" ++ put x.lower ++ "]").toList ++ r = '[' :: ((put x.lower).toList ++ ']' :: r) := by simp [String.toList_append]
        rw [e]
        exact .one (sk_self _ rfl) (hl.visible _) (hl.read _ _ (.inr rfl)) (sk_self _ rfl)
      · rw [h4, ix.gamma, ← hab]; rfl
  · obtain ⟨t, h1, -, h2⟩ := C53_std V hnum hx hl hu
    refine ⟨t, fun s => ?_, fun r => ⟨x, h2 r, rfl⟩⟩
    rw [← h1 s]
    unfold ioSngl ioStd
    have e0 : isEmptyI V.C x = .ok false := by
      obtain ⟨a, b, ix⟩ := has_of_nonempty hx
      exact ix.test V.chk
    have e1 := C22_singleton V (.inl hx)
    rw [decide_eq_false hs] at e1
    rw [e0, e1]; rfl

/-- An empty interval is written as `[]`, which is not accepted: the object read becomes empty, but the stream fails. -/
theorem C53_empty (hb : ∀ r, num (']' :: r) = none) (hE : V.checks.forbidsEmpty = false) (h : Void x)
    (put : T → String) :
    ∃ t, (∀ s, ioStd V.C (.text put) x s = .ok (s ++ t)) ∧ (∀ s, ioSngl V.C (.text put) x s = .ok (s ++ t)) ∧
      ∀ r, V.YieldsEmpty (lift (readI V.C num ⟨t.toList ++ r, true⟩).1) ∧ (readI V.C num ⟨t.toList ++ r, true⟩).2.good = false := by
  have e : isEmptyI V.C x = .ok true := by rw [isEmptyI_eq]; exact h.test V hE
  refine ⟨"[]", fun s => ?_, fun s => ?_, fun r => ?_⟩
  · unfold ioStd; rw [e]; rfl
  · unfold ioSngl; rw [e]; rfl
  · have e1 : ("[]" : String).toList ++ r = '[' :: ']' :: r := rfl
    have e2 : ('[' :: ']' :: r).dropWhile isSpace = '[' :: ']' :: r := rfl
    have e3 : (']' :: r).dropWhile isSpace = ']' :: r := rfl
    have key : readI V.C num ⟨'[' :: ']' :: r, true⟩ = (emptyI V.C, ⟨']' :: r, false⟩) := by
      rw [readI_eq, e2]; simp [e3, hb r]
    rw [e1, key]
    exact ⟨V.yieldsEmpty_lift rfl, rfl⟩
end

/-! ## The hypotheses can be met -/

section
/-- Numbers of one oneDigit. -/
def oneDigit : List Char → Option (ℚ × List Char)
  | c :: r => if c.isDigit then some ((c.toNat : ℚ) - 48, r) else none
  | [] => none
private def put12 (v : ℚ) : String := if v = 1 then "1" else "2"

private theorem inv1 : Inverse put12 oneDigit 1 := ⟨fun c r _ => by
  have : (put12 1).toList = ['1'] := by decide +kernel
  rw [this]; simp [oneDigit]; norm_num, fun r => by
  have : (put12 1).toList = ['1'] := by decide +kernel
  rw [this]; exact sk_self _ (by decide)⟩
private theorem inv2 : Inverse put12 oneDigit 2 := ⟨fun c r _ => by
  have : (put12 2).toList = ['2'] := by decide +kernel
  rw [this]; simp [oneDigit]; norm_num, fun r => by
  have : (put12 2).toList = ['2'] := by decide +kernel
  rw [this]; exact sk_self _ (by decide)⟩

example := C53_std ratEnv (x := litI 1 2) rfl ne_lit inv1 inv2
example := C53_sngl ratEnv (x := litI 1 1) rfl ne_lit inv1 inv1
example : readI ratEnv.C oneDigit ⟨" [ 1 , 2 ]x".toList, true⟩ = (.ok ⟨1, 2⟩, ⟨['x'], true⟩) := by decide +kernel
example : readI ratEnv.C oneDigit ⟨"[3]".toList, true⟩ = (.ok ⟨3, 3⟩, ⟨[], true⟩) := by decide +kernel
example : readI ratEnv.C oneDigit ⟨" 3 4".toList, true⟩ = (.ok ⟨3, 3⟩, ⟨[' ', '4'], true⟩) := by decide +kernel
/-- Undefined: nothing to read, or nothing after the bracket. -/
theorem C53_read_ub : readI ratEnv.C oneDigit ⟨" ".toList, true⟩ = (.error .ub, ⟨[], false⟩) ∧
    readI ratEnv.C oneDigit ⟨"[ ".toList, true⟩ = (.error .ub, ⟨[], false⟩) := by decide +kernel
example : ¬ Cut "[1;2]".toList ∧ ¬ ∃ l u r, Parses oneDigit "[1;2]".toList l u r := by
  have hg : (readI ratEnv.C oneDigit ⟨"[1;2]".toList, true⟩).2.good = false := by decide +kernel
  refine ⟨?_, ?_⟩
  · rintro (h | ⟨t, h1, h2⟩)
    · rw [sk_iff] at h; revert h; decide
    · rw [sk_iff] at h1 h2
      have : "[1;2]".toList.dropWhile isSpace = '[' :: "1;2]".toList := by decide
      rw [this] at h1; cases h1; revert h2; decide
  · rintro ⟨l, u, r, h⟩
    have := (C53_grammar (C := ratEnv.C) (num := oneDigit) rfl _ _ _).2 ⟨l, u, h, rfl⟩
    rw [this] at hg; cases hg
example := C53_empty fltBase (x := ⟨Num.nan, Num.nan⟩) (num := fun _ => none) (fun _ => rfl) rfl (fun l u h => by cases h) (fun _ => "")
end

end BI
