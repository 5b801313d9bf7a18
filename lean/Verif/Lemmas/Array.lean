import Verif.Model.ArrayC
/-! Lemmas on `blit`, the array copies, `forLoop` and `memset`. -/
namespace SPVM

theorem blit_length {dst src : List α} {d s n : Nat} (h1 : d + n ≤ dst.length) (h2 : s + n ≤ src.length) :
    (blit dst d src s n).length = dst.length := by
  simp [blit]; omega

theorem blit_getElem? {dst src : List α} {d s n : Nat} (h1 : d + n ≤ dst.length) (h2 : s + n ≤ src.length) (i : Nat) :
    (blit dst d src s n)[i]? = if d ≤ i ∧ i < d + n then src[s + (i - d)]? else dst[i]? := by
  unfold blit
  rw [List.getElem?_append, List.getElem?_append]
  simp only [List.length_take, List.getElem?_take, List.getElem?_drop, List.length_drop]
  split
  · grind
  · split
    · grind
    · rw [if_neg (by omega)]
      congr 1; omega

theorem blit_zero {dst src : List α} {d s : Nat} : blit dst d src s 0 = dst := by
  simp [blit]

theorem rawMove_ok {dst src : List α} {d s len : Int} (hd : 0 ≤ d) (hs : 0 ≤ s) (hl : 0 ≤ len)
    (h1 : d + len ≤ dst.length) (h2 : s + len ≤ src.length) :
    rawMove dst d src s len = .ok (blit dst d.toNat src s.toNat len.toNat) := by
  simp [rawMove, *]

theorem arrayCopyCommon_ok {raw : List α → Int → List α → Int → Int → Out (List α)}
    {dst src : List α} {d s len : Int} (hd : 0 ≤ d) (hs : 0 ≤ s) (hl : 0 ≤ len)
    (h1 : d + len ≤ dst.length) (h2 : s + len ≤ src.length)
    (hr : raw dst d src s len = .ok (blit dst d.toNat src s.toNat len.toNat))
    (i1 : I32 (d + len)) (i2 : I32 (s + len)) :
    arrayCopyCommon raw (some dst) d (some src) s len = .ok (blit dst d.toNat src s.toNat len.toNat) := by
  unfold arrayCopyCommon
  simp only
  rw [if_neg (by omega), if_neg (by omega), if_neg (by omega)]
  by_cases h0 : len = 0
  · simp [h0, blit_zero]
  · rw [if_neg h0, add32_ok i1, add32_ok i2]
    simp only [Out.ok_bind]
    rw [if_neg (by simp only [alen]; omega), if_neg (by simp only [alen]; omega), hr]

theorem arrayMemcpy_ok {dst src : List α} {d s len : Int} (hd : 0 ≤ d) (hs : 0 ≤ s) (hl : 0 ≤ len)
    (h1 : d + len ≤ dst.length) (h2 : s + len ≤ src.length) (i1 : I32 (d + len)) (i2 : I32 (s + len)) :
    arrayMemcpy false (some dst) d (some src) s len = .ok (blit dst d.toNat src s.toNat len.toNat) :=
  arrayCopyCommon_ok hd hs hl h1 h2 (by simp [rawCopy, rawMove_ok hd hs hl h1 h2]) i1 i2

theorem arrayMemmove_ok {dst src : List α} {d s len : Int} (hd : 0 ≤ d) (hs : 0 ≤ s) (hl : 0 ≤ len)
    (h1 : d + len ≤ dst.length) (h2 : s + len ≤ src.length) (i1 : I32 (d + len)) (i2 : I32 (s + len)) :
    arrayMemmove (some dst) d (some src) s len = .ok (blit dst d.toNat src s.toNat len.toNat) :=
  arrayCopyCommon_ok hd hs hl h1 h2 (rawMove_ok hd hs hl h1 h2) i1 i2

/-- Invariant rule for counted loops. -/
theorem forLoop_inv {n : Nat} {start : Nat} {body : Nat → σ → Out σ} {s : σ} (Inv : Nat → σ → Prop)
    (h0 : Inv start s)
    (hstep : ∀ i s, start ≤ i → i < start + n → Inv i s → ∃ s', body i s = .ok s' ∧ Inv (i + 1) s') :
    ∃ s', forLoop start n body s = .ok s' ∧ Inv (start + n) s' := by
  induction n generalizing start s with
  | zero => exact ⟨s, rfl, h0⟩
  | succ n ih =>
    obtain ⟨s', e, hi⟩ := hstep start s (by omega) (by omega) h0
    obtain ⟨s'', e', hi'⟩ := ih hi (fun i t h1 h2 h3 => hstep i t (by omega) (by omega) h3)
    refine ⟨s'', ?_, by rwa [show start + (n + 1) = start + 1 + n by omega]⟩
    simp [forLoop, e, e']

/-- A loop whose body never fails is a fold. -/
theorem forLoop_inv_all {n : Nat} {start : Nat} {body : Nat → σ → Out σ} {s : σ} (Inv : Nat → σ → Prop)
    (P : Out σ → Prop) (h0 : Inv start s) (hend : ∀ s, Inv (start + n) s → P (.ok s))
    (hstep : ∀ i s, start ≤ i → i < start + n → Inv i s →
      (∃ s', body i s = .ok s' ∧ Inv (i + 1) s') ∨ (∃ m, body i s = .die m ∧ P (.die m)) ∨ (body i s = .ub ∧ P .ub)) :
    P (forLoop start n body s) := by
  induction n generalizing start s with
  | zero => exact hend s h0
  | succ n ih =>
    rcases hstep start s (by omega) (by omega) h0 with ⟨s', e, hi⟩ | ⟨m, e, hp⟩ | ⟨e, hp⟩
    · have := ih hi (fun t ht => hend t (by rwa [show start + (n + 1) = start + 1 + n by omega]))
        (fun i t h1 h2 h3 => hstep i t (by omega) (by omega) h3)
      simpa [forLoop, e] using this
    · simpa [forLoop, e] using hp
    · simpa [forLoop, e] using hp

theorem arrayMemset_ok {a : List α} {e : α} {offset length : Int} (h0 : 0 ≤ offset) (h1 : 0 ≤ length)
    (h2 : offset + length ≤ a.length) (h3 : I32 (offset + length)) :
    arrayMemset a e offset length = .ok (blit a offset.toNat (List.replicate length.toNat e) 0 length.toNat) := by
  unfold arrayMemset
  simp only [h0, not_true_eq_false, if_false, show ¬ length < 0 by omega, Out.ok_bind]
  rw [add32_ok h3]
  simp only [Out.ok_bind]
  rw [if_neg (by simp only [alen]; omega)]
  obtain ⟨s', e1, e2⟩ := forLoop_inv (start := 0) (n := length.toNat)
    (body := fun i a => do
        let j ← add32 offset i
        aSet a j e) (s := a)
    (fun i b => b = blit a offset.toNat (List.replicate length.toNat e) 0 i)
    (by simp [blit_zero])
    (by
      intro i b _ hi hb
      have hI : I32 (offset + i) := by unfold I32 at *; omega
      have hl : b.length = a.length := by
        rw [hb, blit_length (by omega) (by simp; omega)]
      refine ⟨b.set (offset + i).toNat e, ?_, ?_⟩
      · rw [add32_ok hI]
        simp only [Out.ok_bind]
        rw [aSet_ok (by omega) (by omega)]
      · subst hb
        apply List.ext_getElem?
        intro k
        rw [blit_getElem? (by omega) (by simp; omega), List.getElem?_set, blit_getElem? (by omega) (by simp; omega)]
        rw [List.getElem?_replicate, hl]
        grind)
  rw [e1, e2]
  simp

end SPVM
