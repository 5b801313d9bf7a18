import Verif.Spec.Dump
import Verif.Lemmas.Utf8
/-!
# Lemmas about `dump`
-/
namespace SPVM
namespace Dump
open VM (Bytes)
open Spec.Dump (Tree Shown Depicts visits visitsL visitsF FirstInFull indent sep decimal number numberLines pretty lines fieldLines target
  arrayType hex2 text)
open Spec.Utf8 (IsScalar encode Stuck)

/-! ## Strings -/

theorem esc_eq (c : UInt8) : escByte c = text "\\x{" ++ hex2 c ++ text "}" := by
  revert c
  decide +kernel

theorem ans_none : Utf8.ans none = (-3, -1) := rfl
theorem ans_some (cp n) : Utf8.ans (some (cp, n)) = ((n : Int), (cp : Int)) := rfl

theorem encode_ascii (cp : Nat) (h : cp < 0x80) : encode cp = [UInt8.ofNat cp] := by
  unfold encode; rw [if_pos h]

theorem encode_len1 (cp : Nat) (h : (encode cp).length = 1) : cp < 0x80 := by
  unfold encode at h
  split at h
  · assumption
  · split at h
    · simp at h
    · split at h <;> simp at h

/-- The first character of the rest. -/
theorem strLoop_step (pre : Bytes) (b : UInt8) (t : Bytes) (k : Nat) (buf : Bytes) :
    strLoop (pre ++ b :: t) (k + 1) pre.length buf =
      match Utf8.dec (b :: t) with
      | some (cp, n) =>
        if n = 1 ∧ ¬ isprint b.toNat then strLoop (pre ++ b :: t) k (pre.length + 1) (buf ++ escByte b)
        else strLoop (pre ++ b :: t) k (pre.length + n) (buf ++ (b :: t).take n)
      | none => strLoop (pre ++ b :: t) k (pre.length + 1) (buf ++ escByte b) := by
  have hg : ((pre ++ b :: t) ++ [0]).getD pre.length 0 = b := by
    rw [List.append_assoc, List.getD_eq_getElem?_getD, List.getElem?_append_right (Nat.le_refl _)]
    simp
  rw [strLoop, if_neg (by simp), Utf8.iterate_eq pre b t _ (by simp; omega), hg]
  cases hd : Utf8.dec (b :: t) with
  | none => simp only [ans_none]; rfl
  | some cn =>
    obtain ⟨cp, n⟩ := cn
    have hp := Utf8.dec_pos hd
    have hl : n ≤ (b :: t).length := by
      obtain ⟨_, h1, r, h2⟩ := Utf8.dec_sound hd
      have : (b :: t).length = (encode cp ++ r).length := by rw [h2]
      rw [this, List.length_append]; omega
    have htake : (((pre ++ b :: t) ++ [0]).drop pre.length).take n = (b :: t).take n := by
      rw [List.append_assoc, List.drop_left, List.take_append_of_le_length hl]
    simp only [ans_some]
    have hpos : (n : Int) > 0 := by omega
    have h1 : ((n : Int) = 1 ∧ ¬ isprint b.toNat = true) ↔ (n = 1 ∧ ¬ isprint b.toNat = true) := by
      rw [show ((n : Int) = 1) = (n = 1) from by apply propext; omega]
    simp only [hpos, if_true, Int.toNat_natCast, htake, h1]
    by_cases h : n = 1 ∧ ¬ isprint b.toNat = true
    · simp only [if_pos h]; rw [h.1]
    · simp only [if_neg h]

theorem shown_total : ∀ (n : Nat) (s : Bytes), s.length ≤ n → ∃ e, Shown s e := by
  intro n
  induction n with
  | zero =>
    intro s h
    cases s with
    | nil => exact ⟨[], .nil⟩
    | cons b t => simp at h
  | succ n ih =>
    intro s h
    cases s with
    | nil => exact ⟨[], .nil⟩
    | cons b t =>
      simp only [List.length_cons, Nat.add_le_add_iff_right] at h
      cases hd : Utf8.dec (b :: t) with
      | none =>
        obtain ⟨e, he⟩ := ih t h
        exact ⟨_, .stray ⟨by simp, fun cp hc => Utf8.dec_none hd cp hc⟩ he⟩
      | some cn =>
        obtain ⟨cp, m⟩ := cn
        obtain ⟨hs, hl, r, hr⟩ := Utf8.dec_sound hd
        have hlen := (Utf8.encode_length cp).1
        have : r.length ≤ n := by
          have : (b :: t).length = (encode cp ++ r).length := by rw [hr]
          rw [List.length_append] at this
          simp only [List.length_cons] at this
          omega
        obtain ⟨e, he⟩ := ih r this
        by_cases hc : 0x20 ≤ cp ∧ cp ≤ 0x7e ∨ 0x80 ≤ cp
        · rw [hr]; exact ⟨_, Shown.char hs hc he⟩
        · have h80 : cp < 0x80 := by omega
          rw [encode_ascii cp h80] at hr
          simp only [List.cons_append, List.nil_append, List.cons.injEq] at hr
          obtain ⟨rfl, rfl⟩ := hr
          refine ⟨_, .control ?_ he⟩
          rw [Utf8.ofNat_toNat cp (by omega)]
          omega

theorem strLoop_shown {r e : Bytes} (h : Shown r e) : ∀ (pre : Bytes) (k : Nat) (buf : Bytes), r.length < k →
    strLoop (pre ++ r) k pre.length buf = .ok (buf ++ e) := by
  induction h with
  | nil =>
    intro pre k buf hk
    cases k with
    | zero => simp at hk
    | succ k => rw [strLoop, if_pos (by simp)]; simp
  | @char cp s e hs hc _ ih =>
    intro pre k buf hk
    have hd := Utf8.dec_encode cp hs s
    have hlen := (Utf8.encode_length cp).1
    cases k with
    | zero => simp at hk
    | succ k =>
      cases hb : encode cp with
      | nil => rw [hb] at hlen; simp at hlen
      | cons b t =>
        rw [hb] at hd
        simp only [List.cons_append] at hd
        have hlen2 : (b :: t).length = (encode cp).length := by rw [hb]
        rw [List.cons_append, strLoop_step, hd]
        simp only
        rw [if_neg]
        · have := ih (pre ++ b :: t) k (buf ++ b :: t) (by rw [List.length_append, hb] at hk; simp only [List.length_cons] at hk; omega)
          rw [List.length_append, List.append_assoc] at this
          rw [← List.cons_append, List.take_append_of_le_length (Nat.le_refl _), List.take_length, this]
          simp
        · rintro ⟨h1, h2⟩
          rw [hlen2] at h1
          have h80 := encode_len1 cp h1
          rw [encode_ascii cp h80] at hb
          simp only [List.cons.injEq] at hb
          rw [← hb.1, Utf8.ofNat_toNat cp (by omega)] at h2
          simp only [isprint, Bool.and_eq_true, decide_eq_true_eq] at h2
          omega
  | @control c s e hc _ ih =>
    intro pre k buf hk
    cases k with
    | zero => simp at hk
    | succ k =>
      have hlt : c.toNat < 0x80 := by omega
      have hd := Utf8.dec_encode c.toNat (by unfold IsScalar; omega) s
      rw [encode_ascii _ hlt] at hd
      simp only [UInt8.ofNat_toNat, List.cons_append, List.nil_append, List.length_singleton] at hd
      rw [strLoop_step, hd]
      simp only
      rw [if_pos ⟨trivial, by simp only [isprint, Bool.and_eq_true, decide_eq_true_eq]; omega⟩, esc_eq]
      have := ih (pre ++ [c]) k (buf ++ (text "\\x{" ++ hex2 c ++ text "}")) (by simp only [List.length_cons] at hk; omega)
      rw [List.length_append, List.append_assoc] at this
      simp only [List.singleton_append, List.length_singleton] at this
      rw [this]
      simp
  | @stray c s e hc _ ih =>
    intro pre k buf hk
    cases k with
    | zero => simp at hk
    | succ k =>
      have hd : Utf8.dec (c :: s) = none := by
        cases hd : Utf8.dec (c :: s) with
        | none => rfl
        | some cn =>
          obtain ⟨cp, n⟩ := cn
          obtain ⟨h1, _, r, h3⟩ := Utf8.dec_sound hd
          exact absurd ⟨r, h3.symm⟩ (hc.2 cp h1)
      rw [strLoop_step, hd]
      simp only
      rw [esc_eq]
      have := ih (pre ++ [c]) k (buf ++ (text "\\x{" ++ hex2 c ++ text "}")) (by simp only [List.length_cons] at hk; omega)
      rw [List.length_append, List.append_assoc] at this
      simp only [List.singleton_append, List.length_singleton] at this
      rw [this]
      simp

theorem shown_det {s e e' : Bytes} (h : Shown s e) (h' : Shown s e') : e = e' := by
  have h1 := strLoop_shown h [] (s.length + 1) [] (by omega)
  have h2 := strLoop_shown h' [] (s.length + 1) [] (by omega)
  rw [h1] at h2
  simpa using h2

/-! ## Numbers and padding -/

theorem pad_eq (d : Nat) : pad d = indent d := by
  induction d with
  | zero => rfl
  | succ d ih =>
    unfold indent
    rw [List.replicate_succ, List.flatten_cons, pad, ih]
    unfold indent
    rw [show text "  " = [32, 32] by decide +kernel]
    rfl

theorem showInt_eq (i : Int) : showInt i = decimal i := by
  unfold showInt decimal
  by_cases h : i < 0
  · rw [if_pos h, if_pos h, show text "-" = [45] by decide +kernel]; rfl
  · rw [if_neg h, if_neg h]; rfl

theorem showNum_eq (n : Num) : showNum n = number n := by
  cases n with
  | int i => exact showInt_eq i
  | flo t => rfl

theorem noWeaken_eq (w : Nat) : noWeaken w = target w := by unfold noWeaken target; omega

/-! ## Visits -/

/-- Shown in full exactly at the first place, if the addresses of `s` have been shown. -/
def Once : List Nat → List (Nat × Bool) → Prop
  | _, [] => True
  | s, (x, e) :: r => (e = true ↔ x ∉ s) ∧ Once (x :: s) r

def after (s : List Nat) (l : List (Nat × Bool)) : List Nat := (l.map (·.1)).reverse ++ s

theorem after_nil (s) : after s [] = s := rfl
theorem after_cons (s x e r) : after s ((x, e) :: r) = after (x :: s) r := by simp [after]
theorem after_append (s l r) : after s (l ++ r) = after (after s l) r := by simp [after]

theorem once_append : ∀ (l r : List (Nat × Bool)) (s : List Nat), Once s (l ++ r) ↔ Once s l ∧ Once (after s l) r := by
  intro l
  induction l with
  | nil => intro r s; simp [Once, after_nil]
  | cons p l ih =>
    intro r s
    obtain ⟨x, e⟩ := p
    simp only [List.cons_append, Once, ih, after_cons, and_assoc]

theorem once_iff : ∀ (l : List (Nat × Bool)) (s : List Nat), Once s l ↔
    ∀ pre a full post, l = pre ++ (a, full) :: post → (full = true ↔ a ∉ s ∧ a ∉ pre.map (·.1)) := by
  intro l
  induction l with
  | nil => intro s; simp [Once]
  | cons p l ih =>
    intro s
    obtain ⟨x, e⟩ := p
    simp only [Once, ih]
    constructor
    · rintro ⟨h1, h2⟩ pre a full post h
      cases pre with
      | nil =>
        simp only [List.nil_append, List.cons.injEq, Prod.mk.injEq] at h
        obtain ⟨⟨rfl, rfl⟩, rfl⟩ := h
        simpa using h1
      | cons q pre =>
        simp only [List.cons_append, List.cons.injEq] at h
        obtain ⟨rfl, h⟩ := h
        rw [h2 pre a full post h]
        simp only [List.mem_cons, not_or, List.map_cons]
        constructor
        · rintro ⟨⟨h3, h4⟩, h5⟩; exact ⟨h4, h3, h5⟩
        · rintro ⟨h4, h3, h5⟩; exact ⟨⟨h3, h4⟩, h5⟩
    · intro h
      refine ⟨by simpa using h [] x e l rfl, fun pre a full post hl => ?_⟩
      rw [h ((x, e) :: pre) a full post (by rw [hl]; rfl)]
      simp only [List.mem_cons, not_or, List.map_cons]
      constructor
      · rintro ⟨h4, h3, h5⟩; exact ⟨⟨h3, h4⟩, h5⟩
      · rintro ⟨⟨h3, h4⟩, h5⟩; exact ⟨h4, h3, h5⟩

theorem first_iff (t : Tree) : FirstInFull t ↔ Once [] (visits t) := by
  rw [once_iff]
  unfold FirstInFull
  simp

end Dump
end SPVM
