import Verif.Model.Fields
/-!
# C53: the fields of an object

Every field has its own bytes in the object, aligned and inside the object; a subclass keeps the layout of its super class.
-/
namespace SPVM
namespace Fields
open VM (Bytes)
open Types (Ty World)

/-- The sizes a field can have. -/
def IsSize (s : Int) : Prop := s = 1 ∨ s = 2 ∨ s = 4 ∨ s = 8

theorem fieldSize_isSize {w : World} {t : Ty} {s : Int} (h : fieldSize w t = some s) : IsSize s := by
  unfold fieldSize at h
  unfold IsSize
  repeat' split at h
  all_goals simp_all

theorem alignOwn_ok {size offset : Int} (hs : IsSize size) (ho : 0 ≤ offset) (hb : offset ≤ 2000000000) :
    ∃ o, alignOwn size (offset + size) offset = .ok o ∧ offset ≤ o ∧ o ≤ offset + 7 ∧ o % size = 0 := by
  unfold alignOwn
  by_cases h : (offset + size) % size ≠ 0
  · have h1 : I32 (size - offset % size) := by
      unfold IsSize at hs; unfold I32; rcases hs with e | e | e | e <;> subst e <;> omega
    have h2 : I32 (offset + (size - offset % size)) := by
      unfold IsSize at hs; unfold I32; rcases hs with e | e | e | e <;> subst e <;> omega
    rw [if_pos h, sub32_ok h1, Out.ok_bind, add32_ok h2]
    refine ⟨_, rfl, ?_⟩
    unfold IsSize at hs
    rcases hs with e | e | e | e <;> subst e <;> omega
  · rw [if_neg h]
    refine ⟨_, rfl, ?_⟩
    unfold IsSize at hs
    rcases hs with e | e | e | e <;> subst e <;> omega

theorem alignBlock_ok {size next index offset : Int} (hs : IsSize size) (ho : 0 ≤ offset) (hb : offset ≤ 2000000000)
    (hi : 0 ≤ index) (hib : index ≤ 100000) (ha : offset % size = 0) :
    ∃ i o, alignBlock next index offset = .ok (i, o) ∧ offset ≤ o ∧ o ≤ offset + 8 ∧ o % size = 0 ∧ index ≤ i ∧
      i ≤ index + 1 := by
  have h1 : I32 (index + 1) := by unfold I32; omega
  have h2 : I32 (8 * (index + 1)) := by unfold I32; omega
  have h3 : I32 (8 - offset % 8) := by unfold I32; omega
  have h4 : I32 (offset + (8 - offset % 8)) := by unfold I32; omega
  unfold alignBlock
  rw [add32_ok h1, Out.ok_bind, mul32_ok h2, Out.ok_bind]
  by_cases e1 : next = 8 * (index + 1)
  · rw [if_pos e1]
    exact ⟨_, _, rfl, by omega, by omega, ha, by omega, by omega⟩
  · rw [if_neg e1]
    by_cases e2 : next > 8 * (index + 1)
    · rw [if_pos e2, sub32_ok h3, Out.ok_bind, add32_ok h4, Out.ok_bind,
        if_pos (show (offset + (8 - offset % 8)) % 8 = 0 by omega)]
      refine ⟨_, _, rfl, by omega, by omega, ?_, by omega, by omega⟩
      unfold IsSize at hs
      rcases hs with e | e | e | e <;> subst e <;> omega
    · rw [if_neg e2]
      exact ⟨_, _, rfl, by omega, by omega, ha, by omega, by omega⟩

theorem place_ok {size index offset : Int} (hs : IsSize size) (ho : 0 ≤ offset) (hb : offset ≤ 1900000000)
    (hi : 0 ≤ index) (hib : index ≤ 100000) :
    ∃ o i, place size index offset = .ok (o, i, o + size) ∧ offset ≤ o ∧ o ≤ offset + 15 ∧ o % size = 0 ∧ index ≤ i ∧
      i ≤ index + 1 := by
  have hs8 : 0 < size ∧ size ≤ 8 := by unfold IsSize at hs; omega
  have h1 : I32 (offset + size) := by unfold I32; omega
  obtain ⟨o1, e1, a1, a2, a3⟩ := alignOwn_ok hs ho (by omega)
  obtain ⟨i, o, e2, b1, b2, b3, b4, b5⟩ := alignBlock_ok (next := offset + size) (index := index) hs
    (show 0 ≤ o1 by omega) (by omega) hi hib a3
  have h2 : I32 (o + size) := by unfold I32; omega
  unfold place
  rw [add32_ok h1, Out.ok_bind, e1, Out.ok_bind, e2, Out.ok_bind, add32_ok h2, Out.ok_bind]
  exact ⟨o, i, rfl, by omega, by omega, b3, b4, b5⟩

/-- The offsets follow each other from `start` without overlap, each aligned to its size, and end at `total`. -/
inductive Laid (w : World) : Int → List Field → List Int → Int → Prop where
  | nil (start) : Laid w start [] [] start
  | cons {start f fs s o os total} (hs : fieldSize w f.ty = some s) (hge : start ≤ o) (hal : o % s = 0)
      (rest : Laid w (o + s) fs os total) : Laid w start (f :: fs) (o :: os) total

theorem layoutLoop_ok (w : World) : ∀ (fs : List Field) (index offset : Int),
    (∀ f ∈ fs, (fieldSize w f.ty).isSome) → 0 ≤ index → 0 ≤ offset → index + fs.length ≤ 65535 →
    offset + 23 * fs.length ≤ 1900000000 →
    ∃ os total, layoutLoop w index offset fs = .ok (os, total) ∧ Laid w offset fs os total ∧
      total ≤ offset + 23 * fs.length
  | [], index, offset, _, _, _, _, _ => ⟨[], offset, rfl, Laid.nil _, by simp⟩
  | f :: fs, index, offset, hf, hi, ho, hib, hob => by
    simp only [List.length_cons] at hib hob
    obtain ⟨s, hs⟩ := Option.isSome_iff_exists.1 (hf f (by simp))
    have hsz := fieldSize_isSize hs
    have hs8 : 0 < s ∧ s ≤ 8 := by unfold IsSize at hsz; omega
    obtain ⟨o, i, e, a1, a2, a3, a4, a5⟩ := place_ok (index := index) hsz ho (by omega) hi (by omega)
    obtain ⟨os, total, e2, l, t⟩ := layoutLoop_ok w fs i (o + s) (fun g hg => hf g (by simp [hg])) (by omega) (by omega)
      (by omega) (by omega)
    refine ⟨o :: os, total, ?_, Laid.cons hs a1 a3 l, ?_⟩
    · simp only [layoutLoop, hs]
      rw [e, Out.ok_bind, e2, Out.ok_bind]
    · simp only [List.length_cons]; omega

theorem Laid.length {w : World} {a fs os b} (h : Laid w a fs os b) : os.length = fs.length := by
  induction h with
  | nil => rfl
  | cons _ _ _ _ ih => simp [ih]

theorem Laid.le {w : World} {a fs os b} (h : Laid w a fs os b) : a ≤ b := by
  induction h with
  | nil => omega
  | cons hs _ _ _ ih => have := fieldSize_isSize hs; unfold IsSize at this; omega

theorem Laid.get {w : World} {a fs os b} (h : Laid w a fs os b) : ∀ (i : Nat) (f : Field), fs[i]? = some f →
    ∃ s o, fieldSize w f.ty = some s ∧ os[i]? = some o ∧ a ≤ o ∧ o % s = 0 ∧ o + s ≤ b := by
  induction h with
  | nil => intro i f h; simp at h
  | cons hs hge hal rest ih =>
    intro i f hi
    match i with
    | 0 =>
      simp at hi; subst hi
      exact ⟨_, _, hs, rfl, hge, hal, rest.le⟩
    | i + 1 =>
      simp at hi
      obtain ⟨s', o', h1, h2, h3, h4, h5⟩ := ih i f hi
      have := fieldSize_isSize hs
      unfold IsSize at this
      exact ⟨s', o', h1, by simpa using h2, by omega, h4, h5⟩

theorem Laid.disjoint {w : World} {a fs os b} (h : Laid w a fs os b) : ∀ (i j : Nat) (f : Field) (s oi oj : Int), i < j →
    fs[i]? = some f → fieldSize w f.ty = some s → os[i]? = some oi → os[j]? = some oj → oi + s ≤ oj := by
  induction h with
  | nil => intro i j f s oi oj _ h; simp at h
  | @cons start f0 fs s0 o0 os total hs hge hal rest ih =>
    intro i j f s oi oj hij hf hsz hoi hoj
    match i, j with
    | i, 0 => omega
    | 0, j + 1 =>
      simp at hf hoi hoj; subst hf; subst hoi
      rw [hs] at hsz; cases hsz
      have hl := rest.length
      have hj := (List.getElem?_eq_some_iff.1 hoj).1
      obtain ⟨g, hg⟩ : ∃ g, fs[j]? = some g := ⟨_, List.getElem?_eq_getElem (by omega)⟩
      obtain ⟨_, o', _, h2, h3, _, _⟩ := rest.get j g hg
      rw [hoj] at h2; cases h2; exact h3
    | i + 1, j + 1 =>
      simp at hf hoi hoj
      exact ih i j f s oi oj (by omega) hf hsz hoi hoj

/-- **C53.**  A class with at most 65535 fields gets a layout (no overflow in the offset arithmetic): every field has an offset
that is aligned to the size of its type and lies inside the object, and different fields do not share a byte. -/
theorem c53_layout (w : World) (fs : List Field) (hn : fs.length ≤ 65535) (hf : ∀ f ∈ fs, (fieldSize w f.ty).isSome) :
    ∃ os total, layout w fs = .ok (os, total) ∧ os.length = fs.length ∧ 0 ≤ total ∧ total ≤ 23 * fs.length ∧
      (∀ (i : Nat) (f : Field), fs[i]? = some f → ∃ s o, fieldSize w f.ty = some s ∧ os[i]? = some o ∧ 0 ≤ o ∧ o % s = 0 ∧ o + s ≤ total) ∧
      (∀ (i j : Nat) (f g : Field) (s t oi oj : Int), i ≠ j → fs[i]? = some f → fs[j]? = some g → fieldSize w f.ty = some s →
        fieldSize w g.ty = some t → os[i]? = some oi → os[j]? = some oj → oi + s ≤ oj ∨ oj + t ≤ oi) := by
  obtain ⟨os, total, e, l, t⟩ := layoutLoop_ok w fs 0 0 hf (by omega) (by omega) (by omega) (by omega)
  refine ⟨os, total, e, l.length, l.le, by omega, l.get, ?_⟩
  intro i j f g s t oi oj hij hfi hgj hs ht hoi hoj
  rcases Nat.lt_or_gt_of_ne hij with h | h
  · exact .inl (l.disjoint i j f s oi oj h hfi hs hoi hoj)
  · exact .inr (l.disjoint j i g t oj oi h hgj ht hoj hoi)

/-! ## Reading and writing fields -/

theorem getField_ok {mem : List UInt8} {o s : Int} (h0 : 0 ≤ o) (h1 : 0 < s) (h2 : o + s ≤ mem.length) (h3 : o % s = 0) :
    getField mem o s = .ok ((mem.drop o.toNat).take s.toNat) := by
  unfold getField; rw [if_pos ⟨h0, h1, h2, h3⟩]

theorem setField_ok {mem : List UInt8} {o : Int} {v : List UInt8} (h0 : 0 ≤ o) (h1 : 0 < v.length)
    (h2 : o + v.length ≤ mem.length) (h3 : o % v.length = 0) :
    setField mem o v = .ok (mem.take o.toNat ++ v ++ mem.drop (o.toNat + v.length)) := by
  unfold setField; rw [if_pos ⟨h0, h1, h2, h3⟩]

/-- **C53.**  Writing a field (of an object with the layout of its class) and reading it gives the value written; every other
field keeps its value; the object keeps its size.  None of the accesses leaves the object or is misaligned. -/
theorem c53_set_get (w : World) (fs : List Field) (os : List Int) (total : Int) (hn : fs.length ≤ 65535)
    (hf : ∀ f ∈ fs, (fieldSize w f.ty).isSome) (hl : layout w fs = .ok (os, total)) (mem : List UInt8)
    (hm : (mem.length : Int) = total) (i : Nat) (f : Field) (s o : Int) (hi : fs[i]? = some f)
    (hs : fieldSize w f.ty = some s) (ho : os[i]? = some o) (v : List UInt8) (hv : (v.length : Int) = s) :
    ∃ mem', setField mem o v = .ok mem' ∧ mem'.length = mem.length ∧ getField mem' o s = .ok v ∧
      ∀ (j : Nat) (g : Field) (t p : Int), j ≠ i → fs[j]? = some g → fieldSize w g.ty = some t → os[j]? = some p →
        ∃ u, getField mem p t = .ok u ∧ getField mem' p t = .ok u := by
  obtain ⟨os', total', e, _, _, _, hin, hdis⟩ := c53_layout w fs hn hf
  rw [hl] at e
  cases e
  obtain ⟨s', o', a1, a2, a3, a4, a5⟩ := hin i f hi
  rw [hs] at a1; rw [ho] at a2; cases a1; cases a2
  have hsz := fieldSize_isSize hs
  have hs8 : 0 < s ∧ s ≤ 8 := by unfold IsSize at hsz; omega
  have hlen : (mem.take o.toNat ++ v ++ mem.drop (o.toNat + v.length)).length = mem.length := by
    simp only [List.length_append, List.length_take, List.length_drop]; omega
  refine ⟨_, setField_ok a3 (by omega) (by omega) (by rw [hv]; exact a4), hlen, ?_, ?_⟩
  · rw [getField_ok a3 hs8.1 (by rw [hlen]; omega) a4]
    congr 1
    have h1 : (mem.take o.toNat).length = o.toNat := by simp; omega
    rw [List.append_assoc, List.drop_append_of_le_length (by omega), List.drop_eq_nil_of_le (by omega), List.nil_append,
      List.take_append_of_le_length (by omega), List.take_of_length_le (by omega)]
  · intro j g t p hji hj ht hp
    obtain ⟨t', p', b1, b2, b3, b4, b5⟩ := hin j g hj
    rw [ht] at b1; rw [hp] at b2; cases b1; cases b2
    have htz := fieldSize_isSize ht
    have ht8 : 0 < t ∧ t ≤ 8 := by unfold IsSize at htz; omega
    refine ⟨_, getField_ok b3 ht8.1 (by omega) b4, ?_⟩
    rw [getField_ok b3 ht8.1 (by rw [hlen]; omega) b4]
    congr 1
    have hd := hdis i j f g s t o p (Ne.symm hji) hi hj hs ht ho hp
    apply List.ext_getElem?
    intro k
    simp only [List.getElem?_take, List.getElem?_drop]
    by_cases hk : k < t.toNat
    · rw [if_pos hk, if_pos hk]
      rcases hd with hd | hd
      · rw [List.append_assoc, List.getElem?_append_right (by simp; omega),
          List.getElem?_append_right (by simp; omega), List.getElem?_drop]
        congr 1
        simp only [List.length_take]; omega
      · rw [List.append_assoc, List.getElem?_append_left (by simp; omega), List.getElem?_take, if_pos (by omega)]
    · rw [if_neg hk, if_neg hk]

/-- **C53.**  Every field of a new object is zero (`undef` for an object type). -/
theorem c53_new_zero (w : World) (fs : List Field) (os : List Int) (total : Int) (hn : fs.length ≤ 65535)
    (hf : ∀ f ∈ fs, (fieldSize w f.ty).isSome) (hl : layout w fs = .ok (os, total)) (i : Nat) (f : Field) (s o : Int)
    (hi : fs[i]? = some f) (hs : fieldSize w f.ty = some s) (ho : os[i]? = some o) :
    getField (newMem total) o s = .ok (List.replicate s.toNat 0) := by
  obtain ⟨os', total', e, _, _, _, hin, _⟩ := c53_layout w fs hn hf
  rw [hl] at e
  cases e
  obtain ⟨s', o', a1, a2, a3, a4, a5⟩ := hin i f hi
  rw [hs] at a1; rw [ho] at a2; cases a1; cases a2
  have hsz := fieldSize_isSize hs
  have hs8 : 0 < s ∧ s ≤ 8 := by unfold IsSize at hsz; omega
  rw [getField_ok a3 hs8.1 (by simp [newMem]; omega) a4]
  unfold newMem
  rw [List.drop_replicate, List.take_replicate]
  congr 2
  omega

/-! ## Super classes -/

theorem mergeOne_append (supers : List (List Field)) : ∀ (fs acc r : List Field), mergeOne supers acc fs = some r →
    ∃ own, r = acc ++ own ∧ own <+: fs ∧ ∀ f ∈ own, search supers f.name = none
  | [], acc, r, h => by simp [mergeOne] at h; exact ⟨[], by simp [h], by simp, by simp⟩
  | f :: fs, acc, r, h => by
    cases hp : search supers f.name with
    | some g =>
      simp only [mergeOne, hp] at h
      split at h
      · cases h; exact ⟨[], by simp, by simp, by simp⟩
      · cases h
    | none =>
      simp only [mergeOne, hp] at h
      obtain ⟨own, e, p, q⟩ := mergeOne_append supers fs _ r h
      refine ⟨f :: own, by simp [e], by simpa using p, ?_⟩
      intro x hx
      rcases List.mem_cons.1 hx with e | e
      · rw [e]; exact hp
      · exact q x e

theorem mergeLoop_append (supers : List (List Field)) (acc : List Field) (c1 c2 : List (List Field)) :
    mergeLoop supers acc (c1 ++ c2) =
      (mergeLoop supers acc c1).bind (fun a => mergeLoop (c1.reverse ++ supers) a c2) := by
  induction c1 generalizing supers acc with
  | nil => simp [mergeLoop]
  | cons c cs ih =>
    simp only [List.cons_append, mergeLoop]
    cases mergeOne supers acc c with
    | none => simp
    | some a => simp [ih]

theorem mergeLoop_prefix (supers : List (List Field)) (acc : List Field) (cs : List (List Field)) (r : List Field)
    (h : mergeLoop supers acc cs = some r) : acc <+: r := by
  induction cs generalizing supers acc with
  | nil => simp [mergeLoop] at h; simp [h]
  | cons c cs ih =>
    simp only [mergeLoop] at h
    cases hm : mergeOne supers acc c with
    | none => simp [hm] at h
    | some a =>
      simp only [hm] at h
      obtain ⟨own, e, _, _⟩ := mergeOne_append supers c acc a hm
      have := ih _ _ h
      rw [e] at this
      exact (List.prefix_append acc own).trans this

theorem merge_some {chain : List (List Field)} {fs : List Field} (h : merge chain = some fs) :
    mergeLoop [] [] chain = some fs ∧ fs.length ≤ 65535 := by
  unfold merge at h
  cases hm : mergeLoop [] [] chain with
  | none => simp [hm] at h
  | some a =>
    simp only [hm] at h
    split at h
    · cases h; exact ⟨rfl, by assumption⟩
    · cases h

theorem layoutLoop_prefix (w : World) : ∀ (fs gs : List Field) (i o : Int) (os os' : List Int) (t t' : Int),
    layoutLoop w i o fs = .ok (os, t) → layoutLoop w i o (fs ++ gs) = .ok (os', t') → os <+: os'
  | [], gs, i, o, os, os', t, t', h, _ => by simp [layoutLoop] at h; rw [h.1]; exact List.nil_prefix
  | f :: fs, gs, i, o, os, os', t, t', h, h' => by
    simp only [List.cons_append, layoutLoop] at h h'
    cases hs : fieldSize w f.ty with
    | none => simp [hs] at h
    | some s =>
      simp only [hs] at h h'
      cases hp : place s i o with
      | ok p =>
        rw [hp, Out.ok_bind] at h h'
        cases h1 : layoutLoop w p.2.1 p.2.2 fs with
        | ok r =>
          cases h2 : layoutLoop w p.2.1 p.2.2 (fs ++ gs) with
          | ok r' =>
            rw [h1, Out.ok_bind] at h
            rw [h2, Out.ok_bind] at h'
            cases h; cases h'
            have := layoutLoop_prefix w fs gs p.2.1 p.2.2 r.1 r'.1 r.2 r'.2 h1 h2
            simpa using this
          | die m => rw [h2] at h'; cases h'
          | ub => rw [h2] at h'; cases h'
        | die m => rw [h1] at h; cases h
        | ub => rw [h1] at h; cases h
      | die m => rw [hp] at h; cases h
      | ub => rw [hp] at h; cases h

/-- **C53.**  A subclass keeps the fields of its super class, with the same index and the same offset: code compiled for the
super class reads and writes the right bytes of an object of the subclass. -/
theorem c53_subclass_layout (w : World) (supers subs : List (List Field)) (fs gs : List Field) (os os' : List Int)
    (t t' : Int) (hs : merge supers = some fs) (hg : merge (supers ++ subs) = some gs) (hl : layout w fs = .ok (os, t))
    (hl' : layout w gs = .ok (os', t')) :
    ∀ (i : Nat) (f : Field) (o : Int), fs[i]? = some f → os[i]? = some o → gs[i]? = some f ∧ os'[i]? = some o := by
  have h1 := (merge_some hs).1
  have h2 := (merge_some hg).1
  rw [mergeLoop_append, h1] at h2
  obtain ⟨ext, e⟩ := mergeLoop_prefix _ _ _ _ h2
  subst e
  obtain ⟨ext', e'⟩ := layoutLoop_prefix w fs ext 0 0 os os' t t' hl hl'
  subst e'
  intro i f o hi ho
  have a := (List.getElem?_eq_some_iff.1 hi).1
  have b := (List.getElem?_eq_some_iff.1 ho).1
  exact ⟨by rw [List.getElem?_append_left a]; exact hi, by rw [List.getElem?_append_left b]; exact ho⟩

theorem search_none {supers : List (List Field)} {n : Bytes} :
    search supers n = none ↔ ∀ c ∈ supers, ∀ f ∈ c, f.name ≠ n := by
  induction supers with
  | nil => simp [search]
  | cons c cs ih =>
    simp only [search]
    cases hf : c.find? (fun f => f.name == n) with
    | some g =>
      simp only [reduceCtorEq, false_iff]
      intro h
      have := List.find?_some hf
      exact h c (by simp) g (List.mem_of_find?_eq_some hf) (by simpa using this)
    | none =>
      simp only [ih]
      rw [List.find?_eq_none] at hf
      constructor
      · intro h d hd f hfd
        rcases List.mem_cons.1 hd with e | e
        · subst e; simpa using hf f hfd
        · exact h d e f hfd
      · intro h d hd; exact h d (by simp [hd])

theorem mergeOne_all (supers : List (List Field)) : ∀ (fs acc : List Field),
    (∀ f ∈ fs, search supers f.name = none) → mergeOne supers acc fs = some (acc ++ fs)
  | [], acc, _ => by simp [mergeOne]
  | f :: fs, acc, h => by
    simp only [mergeOne, h f (by simp)]
    rw [mergeOne_all supers fs (acc ++ [f]) (fun g hg => h g (by simp [hg]))]
    simp

theorem mergeLoop_all : ∀ (cs supers : List (List Field)) (acc : List Field),
    (supers.flatten.map Field.name ++ cs.flatten.map Field.name).Nodup →
    mergeLoop supers acc cs = some (acc ++ cs.flatten)
  | [], _, acc, _ => by simp [mergeLoop]
  | c :: cs, supers, acc, h => by
    simp only [mergeLoop]
    rw [mergeOne_all]
    · simp only
      rw [mergeLoop_all cs (c :: supers)]
      · simp
      · simp only [List.flatten_cons, List.map_append, List.append_assoc] at h ⊢
        refine (List.Perm.nodup_iff ?_).1 h
        rw [← List.append_assoc, ← List.append_assoc]
        exact List.Perm.append_right _ List.perm_append_comm
    · intro f hf
      rw [search_none]
      intro d hd g hg e
      have hdis := (List.nodup_append.1 h).2.2
      exact hdis g.name (List.mem_map.2 ⟨g, List.mem_flatten.2 ⟨d, hd, hg⟩, rfl⟩) f.name
        (List.mem_map.2 ⟨f, by simp [hf], rfl⟩) e

/-- **C53 (partial).**  When no class redeclares a field of a super class, the object has exactly the declared fields of all
its classes, those of the super classes first.  Missing: classes that redeclare a field, see
`c53_fields_after_redeclaration_violated`. -/
theorem c53_all_fields_partial (chain : List (List Field)) (hd : (chain.flatten.map Field.name).Nodup)
    (hn : chain.flatten.length ≤ 65535) : merge chain = some chain.flatten := by
  unfold merge
  rw [mergeLoop_all chain [] [] (by simpa using hd)]
  simp only [List.nil_append]
  rw [if_pos hn]

theorem mergeLoop_names : ∀ (cs supers : List (List Field)) (acc r : List Field),
    (∀ c ∈ cs, (c.map Field.name).Nodup) → (acc.map Field.name).Nodup →
    (∀ f ∈ acc, ∃ c ∈ supers, f ∈ c) → mergeLoop supers acc cs = some r →
    (r.map Field.name).Nodup ∧ ∀ f ∈ r, ∃ c ∈ supers ++ cs, f ∈ c
  | [], supers, acc, r, _, ha, hin, h => by simp [mergeLoop] at h; subst h; simpa using ⟨ha, hin⟩
  | c :: cs, supers, acc, r, hc, ha, hin, h => by
    simp only [mergeLoop] at h
    cases hm : mergeOne supers acc c with
    | none => simp [hm] at h
    | some a =>
      simp only [hm] at h
      obtain ⟨own, e, hp, hq⟩ := mergeOne_append supers c acc a hm
      subst e
      have hnd : ((acc ++ own).map Field.name).Nodup := by
        rw [List.map_append, List.nodup_append]
        refine ⟨ha, ?_, ?_⟩
        · exact List.Sublist.nodup (hp.sublist.map _) (hc c (by simp))
        · intro x hx y hy exy
          obtain ⟨f, hf, ef⟩ := List.mem_map.1 hx
          obtain ⟨g, hg, eg⟩ := List.mem_map.1 hy
          obtain ⟨d, hd, hfd⟩ := hin f hf
          exact (search_none.1 (hq g hg)) d hd f hfd (by rw [ef, eg, exy])
      have hin' : ∀ f ∈ acc ++ own, ∃ d ∈ c :: supers, f ∈ d := by
        intro f hf
        rcases List.mem_append.1 hf with hf | hf
        · obtain ⟨d, hd, hfd⟩ := hin f hf; exact ⟨d, by simp [hd], hfd⟩
        · exact ⟨c, by simp, hp.subset hf⟩
      obtain ⟨q1, q2⟩ := mergeLoop_names cs (c :: supers) (acc ++ own) r (fun d hd => hc d (by simp [hd])) hnd hin' h
      refine ⟨q1, fun f hf => ?_⟩
      obtain ⟨d, hd, hfd⟩ := q2 f hf
      refine ⟨d, ?_, hfd⟩
      simp only [List.mem_append, List.mem_cons] at hd ⊢
      rcases hd with (h | h) | h
      · exact .inr (.inl h)
      · exact .inl h
      · exact .inr (.inr h)

/-- **C53.**  A field name is one field of the object: no two fields of an accepted class have the same name, and every field
of the object is declared by one of its classes. -/
theorem c53_names_unique (chain : List (List Field)) (hc : ∀ c ∈ chain, (c.map Field.name).Nodup) (fs : List Field)
    (h : merge chain = some fs) : (fs.map Field.name).Nodup ∧ ∀ f ∈ fs, ∃ c ∈ chain, f ∈ c := by
  have := mergeLoop_names chain [] [] fs hc (by simp) (by simp) (merge_some h).1
  simpa using this

/-- **C53.**  A class whose first redeclared field has another type than in the super class is rejected, and a redeclaration
with the same type does not add a second field. -/
theorem c53_redeclared (supers : List (List Field)) (fs : List Field) (hs : merge supers = some fs) (own : List Field)
    (f g : Field) (rest : List Field) (hown : ∀ x ∈ own, ∀ c ∈ supers, ∀ y ∈ c, y.name ≠ x.name)
    (hf : search supers.reverse f.name = some g) :
    (f.ty ≠ g.ty → merge (supers ++ [own ++ f :: rest]) = none) ∧
    (f.ty = g.ty → (fs ++ own).length ≤ 65535 → merge (supers ++ [own ++ f :: rest]) = some (fs ++ own)) := by
  have key : ∀ (own acc : List Field), (∀ x ∈ own, ∀ c ∈ supers, ∀ y ∈ c, y.name ≠ x.name) →
      mergeOne supers.reverse acc (own ++ f :: rest) = if f.ty = g.ty then some (acc ++ own) else none := by
    intro own
    induction own with
    | nil =>
      intro acc _
      simp only [List.nil_append, mergeOne, hf, List.append_nil]
      by_cases he : f.ty = g.ty
      · rw [if_pos he, if_pos (by simp [tyEquals, he])]
      · rw [if_neg he, if_neg]
        intro ht
        apply he
        obtain ⟨fn, ⟨a, b, c, d⟩⟩ := f
        obtain ⟨gn, ⟨a', b', c', d'⟩⟩ := g
        simp [tyEquals] at ht
        simp [ht]
    | cons x own ih =>
      intro acc h
      have hx : search supers.reverse x.name = none := by
        rw [search_none]; intro c hc; exact h x (by simp) c (by simpa using hc)
      simp only [List.cons_append, mergeOne, hx]
      rw [ih (acc ++ [x]) (fun y hy => h y (by simp [hy]))]
      simp
  have h1 := (merge_some hs).1
  have h2 : mergeLoop [] [] (supers ++ [own ++ f :: rest]) = if f.ty = g.ty then some (fs ++ own) else none := by
    rw [mergeLoop_append, h1]
    simp only [Option.bind_some, List.append_nil, mergeLoop]
    rw [key own fs hown]
    by_cases he : f.ty = g.ty <;> simp [he]
  constructor
  · intro he
    unfold merge; rw [h2, if_neg he]
  · intro he hl
    unfold merge; rw [h2, if_pos he]; simp only; rw [if_pos hl]

/-- **C53, violated.**  A class that redeclares a field of its super class loses all the fields it declares after that: here
`class B extends A { has x : int; has y : int; }` with `class A { has x : int; }` has no field `y`.  (The `break` at
spvm_check.c 362 leaves the loop over the fields instead of skipping one.) -/
theorem c53_fields_after_redeclaration_violated :
    ∃ (chain : List (List Field)) (f : Field), (∀ c ∈ chain, (c.map Field.name).Nodup) ∧ (∃ c ∈ chain, f ∈ c) ∧
      ∃ fs, merge chain = some fs ∧ f ∉ fs ∧ ∀ g ∈ fs, g.name ≠ f.name :=
  ⟨[[⟨[120], ⟨5, 0, false, false⟩⟩], [⟨[120], ⟨5, 0, false, false⟩⟩, ⟨[121], ⟨5, 0, false, false⟩⟩]],
    ⟨[121], ⟨5, 0, false, false⟩⟩, by decide, by decide, [⟨[120], ⟨5, 0, false, false⟩⟩], by decide⟩

/-! ## Examples -/

section Examples
/-- `byte`, `int`, `short`, `long`, an `int[]`. -/
private def exFields : List Field :=
  [⟨[97], ⟨3, 0, false, false⟩⟩, ⟨[98], ⟨5, 0, false, false⟩⟩, ⟨[99], ⟨4, 0, false, false⟩⟩, ⟨[100], ⟨6, 0, false, false⟩⟩,
    ⟨[101], ⟨5, 1, false, false⟩⟩]

/-- The layout of a class with fields of five sizes; the hypotheses of `c53_layout`, `c53_set_get` and `c53_new_zero` hold. -/
example : layout [] exFields = .ok ([0, 4, 16, 32, 48], 56) ∧ (∀ f ∈ exFields, (fieldSize [] f.ty).isSome) := by
  decide +kernel

/-- A super class and a subclass: `c53_subclass_layout`, `c53_all_fields_partial`, `c53_names_unique`. -/
example : merge [exFields.take 2] = some (exFields.take 2) ∧ merge [exFields.take 2, exFields.drop 2] = some exFields ∧
    layout [] (exFields.take 2) = .ok ([0, 4], 8) := by decide +kernel

/-- A redeclared field with another type is rejected: `c53_redeclared`. -/
example : merge [exFields.take 2, [⟨[98], ⟨6, 0, false, false⟩⟩]] = none := by decide +kernel
end Examples

end Fields
end SPVM
