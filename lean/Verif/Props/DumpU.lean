import Verif.Lemmas.DumpU

/-!
# C95: the unsigned dump of an array
-/

set_option linter.unusedSimpArgs false
set_option linter.unusedVariables false

namespace SPVM.DumpU
open VM (Bytes)
open Spec.DumpU (Ty lines text)
open Spec.Format (Arg Piece)

/-- **C95**: for every array of `byte`, `short`, `int` or `long`, `dump_unsigned_*` returns the lines of its elements read without a sign, when
memory suffices for twice the text. -/
theorem dump_unsigned {D : Type} (E : Format.Env D) {limit : Nat} (hlim : limit ≤ 2147483646) (t : Ty) (vs : List Int)
    (hv : ∀ v ∈ vs, t.Holds v) (ha : E.addr .other < 2 ^ 64) (hl : vs.length ≤ 2147483647)
    (hm : 2 * (text t vs (E.addr .other)).length ≤ limit) :
    dumpUnsigned E limit t (some vs) = .ok (some (text t vs (E.addr .other))) := by
  unfold text at hm ⊢
  generalize hN : t.arrayName.toUTF8.toList = N at hm ⊢
  simp only [List.length_append, List.length_cons, List.length_nil] at hm
  have h4 : 4 ≤ limit := by omega
  unfold dumpUnsigned
  simp only []
  have h1 := loop_ok E hlim h4 t vs hv vs [] [91, 10] rfl hl (by simp only [List.length_cons, List.length_nil]; omega)
  rw [List.length_nil] at h1
  rw [h1, Out.ok_bind, hN, cat_ok hlim (by simp; omega), Out.ok_bind, cat_ok hlim (by simp; omega), Out.ok_bind,
    pointer E hlim h4 ha (by omega), Out.ok_bind, cat_ok hlim (by simp; omega), Out.ok_bind, cat_ok hlim (by simp; omega), Out.ok_bind,
    cat_ok hlim (by simp; omega)]
  simp

/-- **C95** (`undef`): the dump of `undef` is the text `undef`. -/
theorem dump_undef {D : Type} (E : Format.Env D) (limit : Nat) (t : Ty) :
    dumpUnsigned E limit t none = .ok (some "undef".toUTF8.toList) := rfl

theorem split_digits {a b : Nat} {c d : UInt8} {r s : Bytes} (hc : Format.NoDigit c) (hd : Format.NoDigit d)
    (h : Spec.digits a ++ c :: r = Spec.digits b ++ d :: s) : a = b ∧ c = d ∧ r = s := by
  have gen : ∀ (x y : Bytes), (∀ q ∈ x, ¬ Format.NoDigit q) → (∀ q ∈ y, ¬ Format.NoDigit q) → x ++ c :: r = y ++ d :: s →
      x = y ∧ c = d ∧ r = s := by
    intro x
    induction x with
    | nil =>
      intro y _ hy h
      cases y with
      | nil => simpa using h
      | cons q y => simp at h; exact absurd (h.1 ▸ hc) (hy q (by simp))
    | cons p x ih =>
      intro y hx hy h
      cases y with
      | nil => simp at h; exact absurd (h.1 ▸ hd) (hx p (by simp))
      | cons q y =>
        simp only [List.cons_append, List.cons.injEq] at h
        have := ih y (fun q hq => hx q (by simp [hq])) (fun q hq => hy q (by simp [hq])) h.2
        exact ⟨by rw [h.1, this.1], this.2⟩
  have := gen _ _ (Format.digits_digit a) (Format.digits_digit b) h
  exact ⟨TypeCache.digits_inj this.1, this.2⟩

theorem unsigned_inj {t : Ty} {v w : Int} (hv : t.Holds v) (hw : t.Holds w) (h : t.unsigned v = t.unsigned w) : v = w := by
  cases t <;> simp only [Ty.Holds, Ty.unsigned, Ty.bits] at * <;> split at h <;> split at h <;> omega

theorem lines_inj {t : Ty} : ∀ {vs ws : List Int} {r s : Bytes}, (∀ v ∈ vs, t.Holds v) → (∀ v ∈ ws, t.Holds v) →
    lines t vs ++ 93 :: r = lines t ws ++ 93 :: s → vs = ws ∧ r = s := by
  intro vs
  induction vs with
  | nil =>
    intro ws r s _ _ h
    cases ws with
    | nil => simpa [lines] using h
    | cons w ws => rw [lines_cons] at h; simp [lines] at h
  | cons v vs ih =>
    intro ws r s hv hw h
    cases ws with
    | nil => rw [lines_cons] at h; simp [lines] at h
    | cons w ws =>
      rw [lines_cons, lines_cons] at h
      simp only [List.append_assoc, List.cons_append, List.nil_append, List.cons.injEq, true_and] at h
      have hvw := fun e => unsigned_inj (hv v (by simp)) (hw w (by simp)) e
      by_cases e1 : vs = []
      · by_cases e2 : ws = []
        · subst e1 e2
          simp only [↓reduceIte, lines, List.cons_append, List.nil_append] at h
          obtain ⟨a, _, b⟩ := split_digits (by unfold Format.NoDigit; decide) (by unfold Format.NoDigit; decide) h
          exact ⟨by rw [hvw a], by simpa using b⟩
        · rw [if_pos e1, if_neg e2] at h
          simp only [List.cons_append, List.nil_append] at h
          obtain ⟨_, b, _⟩ := split_digits (by unfold Format.NoDigit; decide) (by unfold Format.NoDigit; decide) h
          exact absurd b (by decide)
      · by_cases e2 : ws = []
        · rw [if_neg e1, if_pos e2] at h
          simp only [List.cons_append, List.nil_append] at h
          obtain ⟨_, b, _⟩ := split_digits (by unfold Format.NoDigit; decide) (by unfold Format.NoDigit; decide) h
          exact absurd b (by decide)
        · rw [if_neg e1, if_neg e2] at h
          simp only [List.cons_append, List.nil_append] at h
          obtain ⟨a, _, b⟩ := split_digits (by unfold Format.NoDigit; decide) (by unfold Format.NoDigit; decide) h
          obtain ⟨c, d⟩ := ih (fun q hq => hv q (List.mem_cons_of_mem _ hq)) (fun q hq => hw q (List.mem_cons_of_mem _ hq)) (by simpa using b)
          exact ⟨by rw [hvw a, c], d⟩

/-- **C95** (nothing is lost): two arrays of the same type with the same dump, at whatever addresses, have the same elements. -/
theorem dump_determines {D : Type} (E E' : Format.Env D) {limit : Nat} (hlim : limit ≤ 2147483646) (t : Ty) (vs ws : List Int)
    (hv : ∀ v ∈ vs, t.Holds v) (hw : ∀ v ∈ ws, t.Holds v) (ha : E.addr .other < 2 ^ 64) (ha' : E'.addr .other < 2 ^ 64)
    (hl : vs.length ≤ 2147483647) (hl' : ws.length ≤ 2147483647)
    (hm : 2 * (text t vs (E.addr .other)).length ≤ limit) (hm' : 2 * (text t ws (E'.addr .other)).length ≤ limit)
    (h : dumpUnsigned E limit t (some vs) = dumpUnsigned E' limit t (some ws)) : vs = ws := by
  rw [dump_unsigned E hlim t vs hv ha hl hm, dump_unsigned E' hlim t ws hw ha' hl' hm'] at h
  simp only [Out.ok.injEq, Option.some.injEq] at h
  unfold text at h
  generalize t.arrayName.toUTF8.toList = N at h
  simp only [List.append_assoc, List.cons_append, List.nil_append, List.cons.injEq, true_and] at h
  exact (lines_inj hv hw h).1

/-- An environment for the examples. -/
def sampleEnv : Format.Env Bytes := { textF := fun d _ => d, textG := fun d _ => d, addr := fun _ => 4096 }

/-- The hypotheses of `dump_unsigned` hold for the `byte` array -1, 0, 127, -128, and the text is what one expects. -/
example : (∀ v ∈ ([-1, 0, 127, -128] : List Int), Ty.byte.Holds v) ∧ sampleEnv.addr .other < 2 ^ 64 ∧
    text .byte [-1, 0, 127, -128] 4096 = "[\n  255,\n  0,\n  127,\n  128\n] : byte[](0x1000)".toUTF8.toList := by
  refine ⟨by simp [Ty.Holds, Ty.bits], by decide, by decide +kernel⟩

/-- The dump of a `byte` array with room for its 32 bytes, and without: the operator `.` then gives `undef`. -/
example : dumpUnsigned sampleEnv 40 .byte (some [-1, 0]) = .ok (some (text .byte [-1, 0] 4096)) ∧
    dumpUnsigned sampleEnv 30 .byte (some [-1, 0]) = .ok none := by decide +kernel

end SPVM.DumpU
