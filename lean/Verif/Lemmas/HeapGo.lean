import Verif.Lemmas.Heap
set_option linter.unusedSimpArgs false
set_option linter.unusedVariables false
/-! The invariant is kept by every run of the heap model. -/
namespace SPVM.Heap

/-! ### freeing an object -/

theorem freeBackrefs_ok {ls : List Loc} : ∀ {h : Heap}, (∀ l, l ∈ ls → ∃ c, h.view.cell l = some c) →
    ∃ h', h.freeBackrefs ls = .ok h' ∧ (∀ k, h'.view.cell k = if k ∈ ls then some none else h.view.cell k) ∧
      h'.view.info = h.view.info ∧ h'.view.next = h.view.next ∧ h'.view.top = h.view.top := by
  induction ls with
  | nil => intro h _; exact ⟨h, rfl, by simp, rfl, rfl, rfl⟩
  | cons l ls ih =>
    intro h hh
    obtain ⟨h1, e1, v1⟩ := write_ok (c := none) (hh l List.mem_cons_self)
    obtain ⟨h2, e2, c2, i2, n2, t2⟩ := ih (h := h1) (fun k hk => by
      rw [v1]
      simp only [View.setCell]
      split
      · exact ⟨_, rfl⟩
      · exact hh k (List.mem_cons_of_mem _ hk))
    refine ⟨h2, by unfold Heap.freeBackrefs; simp [e1, e2], ?_, ?_, ?_, ?_⟩
    · intro k
      rw [c2, v1]
      simp only [View.setCell, List.mem_cons]
      by_cases hk : k ∈ ls
      · simp [hk]
      · by_cases hkl : k = l
        · simp [hkl]
        · simp [hk, hkl]
    · rw [i2, v1]; rfl
    · rw [n2, v1]; rfl
    · rw [t2, v1]; rfl

/-- Freeing an object whose slots are all empty. -/
theorem view_free {h : Heap} {a : Nat} :
    (h.setObj a none).view = { h.view with
      cell := fun k => match k with
        | .slot b i => if b = a then none else h.view.cell (.slot b i)
        | k => h.view.cell k
      info := fun b => if b = a then none else h.view.info b } := by
  apply View.ext'
  · intro k
    cases k with
    | var i => rfl
    | mortal i => rfl
    | slot b i =>
      simp only [Heap.view, Heap.cell, Heap.setObj]
      by_cases hb : b = a
      · simp [hb]
      · simp [hb]
  · intro b
    simp only [Heap.view, Heap.setObj]
    by_cases hb : b = a
    · simp [hb]
    · simp [hb]
  · rfl
  · rfl

/-- What a piece of runtime code leaves alone. -/
structure Frame (dying : List Nat) (v v' : View) : Prop where
  next : v.next ≤ v'.next
  top : v.top ≤ v'.top
  mort : ∀ i, i < v.top → v'.cell (.mortal i) = v.cell (.mortal i)
  old : ∀ a o', v'.info a = some o' → a < v.next → ∃ o, v.info a = some o ∧ o'.nslots = o.nslots ∧ o'.cls = o.cls
  dy : ∀ a, a ∈ dying → ∀ i, v.cell (.slot a i) = some none → v'.cell (.slot a i) = some none

theorem Frame.refl (dying : List Nat) (v : View) : Frame dying v v :=
  ⟨Nat.le_refl _, Nat.le_refl _, fun _ _ => rfl, fun a o' h _ => ⟨o', h, rfl, rfl⟩, fun _ _ _ h => h⟩

theorem Frame.trans {dying : List Nat} {v v' v'' : View} (h1 : Frame dying v v') (h2 : Frame dying v' v'') :
    Frame dying v v'' where
  next := Nat.le_trans h1.next h2.next
  top := Nat.le_trans h1.top h2.top
  mort := fun i hi => by rw [h2.mort i (by have := h1.top; omega), h1.mort i hi]
  old := fun a o'' h hlt => by
    obtain ⟨o', h', e1, e2⟩ := h2.old a o'' h (by have := h1.next; omega)
    obtain ⟨o, h'', e3, e4⟩ := h1.old a o' h' hlt
    exact ⟨o, h'', by omega, by omega⟩
  dy := fun a ha i h => h2.dy a ha i (h1.dy a ha i h)

theorem Frame.weaken {dying dying' : List Nat} {v v' : View} (h : Frame dying' v v') (hs : ∀ a, a ∈ dying → a ∈ dying') :
    Frame dying v v' := { h with dy := fun a ha => h.dy a (hs a ha) }

/-- The end of a destruction. -/
theorem finish_ok {h : Heap} {ph dying : List Nat} {a : Nat} (hv : Inv h.view (a :: ph) none) (hm : Mort h.view)
    (hph : a ∉ ph) (hd : ∀ b, b ∈ dying → b ∈ ph)
    (hs : ∀ i c, h.view.cell (.slot a i) = some c → c = none) :
    ∃ h', h.finish a = .ok h' ∧ Inv h'.view ph none ∧ Mort h'.view ∧ Frame dying h.view h'.view ∧
      h'.view.top = h.view.top := by
  obtain ⟨o, ho⟩ := hv.phl a List.mem_cons_self
  obtain ⟨h1, e1, v1⟩ := addCount_ok (d := -1) ⟨o, ho⟩
  have ho1 : h1.view.info a = some { o with count := o.count + -1 } := by
    rw [v1]
    have := modInfo_of_some (a := a) (f := fun i => { i with count := i.count + -1 }) ho
    rw [if_pos rfl] at this
    exact this
  obtain ⟨ob, e2, hob, hobi⟩ := obj_ok ho1
  have hcnt : ob.count = o.count + -1 := by
    have := congrArg Info.count hobi; exact this
  have hbk : ob.backrefs = o.backrefs := by
    have := congrArg Info.backrefs hobi; exact this
  have hfr1 : Frame dying h.view h1.view := by
    rw [v1]
    refine ⟨Nat.le_refl _, Nat.le_refl _, fun _ _ => rfl, fun b o' hb hlt => ?_, fun _ _ _ h => h⟩
    obtain ⟨o0, h0, rfl⟩ := modInfo_some hb
    refine ⟨o0, h0, ?_⟩
    split <;> exact ⟨rfl, rfl⟩
  have hm1 : Mort h1.view := by rw [v1]; exact hm
  have hpos := hv.pos a o ho (by simp)
  unfold Heap.finish
  simp only [e1, e2, Res.ok_bind, hcnt, hbk]
  by_cases hz : o.count + -1 = 0
  · rw [if_pos hz]
    have hv1 : Inv (h.view.addCount a (-1)) ph (some a) :=
      inv_dec { hv with pos := fun b ob hb _ => hv.pos b ob hb (by simp) } ho (.inr rfl)
    rw [← v1] at hv1
    obtain ⟨hbn, hbm⟩ := hv1.back a _ ho1
    obtain ⟨L, ⟨hLn, hLm⟩, hLc⟩ := hv1.count a _ ho1
    have hnoStrong : ∀ k, h1.view.cell k ≠ some (some ⟨a, false⟩) := by
      intro k hk
      have := List.length_pos_of_mem ((hLm k).mpr hk)
      simp only at hLc
      omega
    have hcell1 : h1.view.cell = h.view.cell := by rw [v1]; rfl
    obtain ⟨h2, e3, c2, i2, n2, t2⟩ := freeBackrefs_ok (h := h1) (ls := o.backrefs) (fun l hl => ⟨_, (hbm l).mp hl⟩)
    simp only [e3, Res.ok_bind]
    have hvf := view_free (h := h2) (a := a)
    -- contents of places afterwards
    have hc3 : ∀ k c, (h2.setObj a none).view.cell k = some c →
        (h1.view.cell k = some c ∧ k ∉ o.backrefs ∨ c = none ∧ k ∈ o.backrefs) ∧ ∀ i, k ≠ .slot a i := by
      intro k c hk
      rw [hvf] at hk
      have hback : h2.view.cell k = some c → (h1.view.cell k = some c ∧ k ∉ o.backrefs ∨ c = none ∧ k ∈ o.backrefs) := by
        intro h
        rw [c2] at h
        by_cases hkb : k ∈ o.backrefs
        · rw [if_pos hkb] at h; cases h; exact .inr ⟨rfl, hkb⟩
        · rw [if_neg hkb] at h; exact .inl ⟨h, hkb⟩
      cases k with
      | var i => exact ⟨hback hk, by simp⟩
      | mortal i => exact ⟨hback hk, by simp⟩
      | slot b i =>
        simp only at hk
        split at hk
        · cases hk
        · rename_i hb
          exact ⟨hback hk, by simp [hb]⟩
    have hc4 : ∀ k c, h1.view.cell k = some c → k ∉ o.backrefs → (∀ i, k ≠ .slot a i) → (h2.setObj a none).view.cell k = some c := by
      intro k c hk hkb hks
      have h2k : h2.view.cell k = some c := by rw [c2, if_neg hkb]; exact hk
      rw [hvf]
      cases k with
      | var i => exact h2k
      | mortal i => exact h2k
      | slot b i =>
        simp only
        have : b ≠ a := by rintro rfl; exact hks i rfl
        rw [if_neg this]; exact h2k
    have hc5 : ∀ k, k ∈ o.backrefs → (∀ i, k ≠ .slot a i) → (h2.setObj a none).view.cell k = some none := by
      intro k hkb hks
      have h2k : h2.view.cell k = some none := by rw [c2, if_pos hkb]
      rw [hvf]
      cases k with
      | var i => exact h2k
      | mortal i => exact h2k
      | slot b i =>
        simp only
        have : b ≠ a := by rintro rfl; exact hks i rfl
        rw [if_neg this]; exact h2k
    have hslot : ∀ i p, h1.view.cell (.slot a i) ≠ some (some p) := by
      intro i p h
      rw [hcell1] at h
      cases hs i _ h
    have hi3 : ∀ b ob, (h2.setObj a none).view.info b = some ob → b ≠ a ∧ h1.view.info b = some ob := by
      intro b ob h
      rw [hvf] at h
      simp only at h
      split at h
      · cases h
      · rename_i hb; rw [i2] at h; exact ⟨hb, h⟩
    have hi4 : ∀ b ob, b ≠ a → h1.view.info b = some ob → (h2.setObj a none).view.info b = some ob := by
      intro b ob hb h
      rw [hvf]
      simp only
      rw [if_neg hb, i2]; exact h
    refine ⟨_, rfl, ?_, ?_, ?_, ?_⟩
    · constructor
      · intro b hb
        rw [hvf] at hb ⊢
        simp only at hb ⊢
        split
        · rfl
        · rw [i2]; exact hv1.fresh b (by rw [n2] at hb; exact hb)
      · intro b ob hob
        obtain ⟨hne, h1b⟩ := hi3 b ob hob
        obtain ⟨M, ⟨hMn, hMm⟩, hMc⟩ := hv1.count b ob h1b
        refine ⟨M, ⟨hMn, fun k => ?_⟩, hMc⟩
        rw [hMm]
        constructor
        · intro hk
          refine hc4 k _ hk ?_ ?_
          · rw [hbm, hk]; simp
          · rintro i rfl; exact hslot i _ hk
        · intro hk
          rcases (hc3 k _ hk).1 with ⟨h, _⟩ | ⟨h, _⟩
          · exact h
          · cases h
      · intro k p hk
        rcases (hc3 k _ hk).1 with ⟨h, hkb⟩ | ⟨h, _⟩
        · obtain ⟨ob, hob⟩ := hv1.live k p h
          refine ⟨ob, hi4 _ ob ?_ hob⟩
          intro hpa
          obtain ⟨pa, pw⟩ := p
          simp only at hpa
          subst hpa
          cases pw with
          | false => exact hnoStrong k h
          | true => exact hkb ((hbm k).mpr h)
        · cases h
      · intro b ob hob
        obtain ⟨hne, h1b⟩ := hi3 b ob hob
        obtain ⟨q1, q2⟩ := hv1.back b ob h1b
        refine ⟨q1, fun k => ?_⟩
        rw [q2]
        constructor
        · intro hk
          refine hc4 k _ hk ?_ ?_
          · rw [hbm, hk]; simp [hne]
          · rintro i rfl; exact hslot i _ hk
        · intro hk
          rcases (hc3 k _ hk).1 with ⟨h, _⟩ | ⟨h, _⟩
          · exact h
          · cases h
      · intro b ob hob _
        obtain ⟨hne, h1b⟩ := hi3 b ob hob
        exact hv1.pos b ob h1b (by simp [Ne.symm hne])
      · intro b hb
        obtain ⟨ob, hob⟩ := hv1.phl b hb
        exact ⟨ob, hi4 b ob (by rintro rfl; exact hph hb) hob⟩
      · intro k b hk
        rcases (hc3 k _ hk).1 with ⟨h, _⟩ | ⟨h, _⟩
        · exact hv1.wk k b h
        · cases h
      · intro b i
        have h1s := hv1.sl b i
        constructor
        · rintro ⟨c, hk⟩
          obtain ⟨hk1, hk2⟩ := hc3 _ c hk
          have hba : b ≠ a := by rintro rfl; exact hk2 i rfl
          have : ∃ c, h1.view.cell (.slot b i) = some c := by
            rcases hk1 with ⟨h, _⟩ | ⟨_, h⟩
            · exact ⟨_, h⟩
            · exact ⟨_, (hbm _).mp h⟩
          obtain ⟨ob, h3, h4⟩ := h1s.mp this
          exact ⟨ob, hi4 b ob hba h3, h4⟩
        · rintro ⟨ob, h3, h4⟩
          obtain ⟨hne, h1b⟩ := hi3 b ob h3
          obtain ⟨c, hc⟩ := h1s.mpr ⟨ob, h1b, h4⟩
          have hns : ∀ j, Loc.slot b i ≠ .slot a j := by
            intro j hj; cases hj; exact hne rfl
          by_cases hkb : Loc.slot b i ∈ o.backrefs
          · exact ⟨_, hc5 _ hkb hns⟩
          · exact ⟨_, hc4 _ c hc hkb hns⟩
    · -- mortal stack
      have hmor : ∀ i, (h2.setObj a none).view.cell (.mortal i) = h1.view.cell (.mortal i) := by
        intro i
        rw [hvf]
        simp only
        rw [c2, if_neg]
        intro hk
        obtain ⟨b, j, hj⟩ := hv1.wk _ a ((hbm _).mp hk)
        cases hj
      have htop : (h2.setObj a none).view.top = h1.view.top := by rw [hvf]; exact t2
      refine ⟨fun i hi => ?_, fun i c hi hc => ?_, ?_⟩
      · rw [hmor]; exact hm1.1 i (by omega)
      · rw [hmor] at hc; exact hm1.2.1 i c (by omega) hc
      · rw [hmor]; exact hm1.2.2
    · refine hfr1.trans ⟨?_, ?_, ?_, ?_, ?_⟩
      · rw [hvf]; exact Nat.le_of_eq n2.symm
      · rw [hvf]; exact Nat.le_of_eq t2.symm
      · intro i hi
        rw [hvf]
        simp only
        rw [c2, if_neg]
        intro hk
        obtain ⟨b, j, hj⟩ := hv1.wk _ a ((hbm _).mp hk)
        cases hj
      · intro b ob hob _
        exact ⟨ob, (hi3 b ob hob).2, rfl, rfl⟩
      · intro b hb i hbi
        have hba : b ≠ a := by rintro rfl; exact hph (hd _ hb)
        have hns : ∀ j, Loc.slot b i ≠ .slot a j := by
          intro j hj; cases hj; exact hba rfl
        refine hc4 _ _ hbi ?_ hns
        rw [hbm, hbi]; simp
    · rw [hvf]; exact t2.trans (by rw [v1]; rfl)
  · rw [if_neg hz]
    refine ⟨h1, rfl, ?_, hm1, hfr1, by rw [v1]; rfl⟩
    rw [v1]
    exact inv_dec hv ho (.inl (by omega))

/-! ### allocation and the mortal stack -/

theorem view_alloc {h : Heap} {n cls : Nat} :
    (h.alloc n cls).view = { h.view with
      cell := fun k => match k with
        | .slot b i => if b = h.next then (if i < n then some none else none) else h.view.cell (.slot b i)
        | k => h.view.cell k
      info := fun b => if b = h.next then some ⟨0, [], cls, n⟩ else h.view.info b
      next := h.next + 1 } := by
  apply View.ext'
  · intro k
    cases k with
    | var i => rfl
    | mortal i => rfl
    | slot b i =>
      simp only [Heap.view, Heap.cell, Heap.setObj, Heap.alloc]
      by_cases hb : b = h.next
      · simp [hb, List.getElem?_replicate]
      · simp [hb]
  · intro b
    simp only [Heap.view, Heap.setObj, Heap.alloc]
    by_cases hb : b = h.next
    · simp [hb, Obj.info]
    · simp [hb]
  · rfl
  · rfl

theorem inv_alloc {h : Heap} {ph : List Nat} {n cls : Nat} (hv : Inv h.view ph none) :
    Inv (h.alloc n cls).view ph (some h.next) := by
  have hfresh : h.view.info h.next = none := hv.fresh h.next (Nat.le_refl _)
  have hnoslot : ∀ i, h.view.cell (.slot h.next i) = none := by
    intro i
    cases hc : h.view.cell (.slot h.next i) with
    | none => rfl
    | some c =>
      obtain ⟨o, h1, _⟩ := (hv.sl h.next i).mp ⟨c, hc⟩
      rw [hfresh] at h1; cases h1
  have hcell : ∀ k p, (h.alloc n cls).view.cell k = some (some p) ↔ h.view.cell k = some (some p) := by
    intro k p
    rw [view_alloc]
    cases k with
    | var i => rfl
    | mortal i => rfl
    | slot b i =>
      simp only
      by_cases hb : b = h.next
      · subst hb
        rw [if_pos rfl, hnoslot]
        split <;> simp
      · rw [if_neg hb]
  have hnoref : ∀ k w, h.view.cell k ≠ some (some ⟨h.next, w⟩) := by
    intro k w hk
    obtain ⟨o, h1⟩ := hv.live k _ hk
    simp only at h1
    rw [hfresh] at h1; cases h1
  have hinfo : ∀ b o, (h.alloc n cls).view.info b = some o →
      (b = h.next ∧ o = ⟨0, [], cls, n⟩) ∨ (b ≠ h.next ∧ h.view.info b = some o) := by
    intro b o hb
    rw [view_alloc] at hb
    simp only at hb
    split at hb
    · cases hb; rename_i hbn; exact .inl ⟨hbn, rfl⟩
    · rename_i hbn; exact .inr ⟨hbn, hb⟩
  have hinfo' : ∀ b o, h.view.info b = some o → (h.alloc n cls).view.info b = some o := by
    intro b o hb
    rw [view_alloc]
    simp only
    rw [if_neg]
    · exact hb
    · rintro rfl; rw [hfresh] at hb; cases hb
  have hphn : h.next ∉ ph := by
    intro hin
    obtain ⟨o, h1⟩ := hv.phl _ hin
    rw [hfresh] at h1; cases h1
  constructor
  · intro b hb
    rw [view_alloc] at hb ⊢
    simp only at hb ⊢
    rw [if_neg (by omega)]
    exact hv.fresh b (by show h.next ≤ b; omega)
  · intro b o hb
    rcases hinfo b o hb with ⟨rfl, rfl⟩ | ⟨_, h1⟩
    · refine ⟨[], ⟨List.nodup_nil, fun k => ?_⟩, ?_⟩
      · rw [hcell]
        simp [hnoref k false]
      · simp [List.count_eq_zero.mpr hphn]
    · obtain ⟨L, ⟨h2, h3⟩, h4⟩ := hv.count b o h1
      exact ⟨L, ⟨h2, fun k => by rw [h3, hcell]⟩, h4⟩
  · intro k p hk
    obtain ⟨o, h1⟩ := hv.live k p ((hcell k p).mp hk)
    exact ⟨o, hinfo' _ o h1⟩
  · intro b o hb
    rcases hinfo b o hb with ⟨rfl, rfl⟩ | ⟨_, h1⟩
    · refine ⟨List.nodup_nil, fun k => ?_⟩
      rw [hcell]; simp [hnoref k true]
    · obtain ⟨h2, h3⟩ := hv.back b o h1
      exact ⟨h2, fun k => by rw [h3, hcell]⟩
  · intro b o hb hne
    rcases hinfo b o hb with ⟨rfl, rfl⟩ | ⟨_, h1⟩
    · exact absurd rfl hne
    · exact hv.pos b o h1 (by simp)
  · intro b hb
    obtain ⟨o, h1⟩ := hv.phl b hb
    exact ⟨o, hinfo' b o h1⟩
  · intro k b hk
    exact hv.wk k b ((hcell k _).mp hk)
  · intro b i
    by_cases hb : b = h.next
    · subst hb
      rw [view_alloc]
      simp only [if_true]
      constructor
      · rintro ⟨c, hc⟩
        split at hc
        · exact ⟨_, rfl, by assumption⟩
        · cases hc
      · rintro ⟨o, ho, hi⟩
        cases ho
        exact ⟨none, if_pos hi⟩
    · rw [view_alloc]
      simp only [if_neg hb]
      exact hv.sl b i

theorem mort_alloc {h : Heap} {n cls : Nat} (hm : Mort h.view) : Mort (h.alloc n cls).view := by
  rw [view_alloc]; exact hm

theorem frame_alloc {h : Heap} {n cls : Nat} {dying ph : List Nat} (hv : Inv h.view ph none) (hd : ∀ b, b ∈ dying → b ∈ ph) :
    Frame dying h.view (h.alloc n cls).view := by
  rw [view_alloc]
  refine ⟨Nat.le_succ _, Nat.le_refl _, fun _ _ => rfl, fun b o hb hlt => ?_, fun b hb i hbi => ?_⟩
  · simp only at hb
    rw [if_neg (by have : b < h.next := hlt; omega)] at hb
    exact ⟨o, hb, rfl, rfl⟩
  · simp only
    rw [if_neg]
    · exact hbi
    · rintro rfl
      obtain ⟨o, h1⟩ := hv.phl _ (hd _ hb)
      rw [hv.fresh h.next (Nat.le_refl _)] at h1; cases h1

/-- Growth of the mortal stack. -/
theorem grow_ok {h : Heap} {ph dying : List Nat} (hv : Inv h.view ph none) (hm : Mort h.view) :
    h.growMortals = .limit ∨ ∃ h', h.growMortals = .ok h' ∧ Inv h'.view ph none ∧ Mort h'.view ∧ Frame dying h.view h'.view ∧
      h'.view.top = h.view.top ∧ h'.view.info = h.view.info ∧ h'.view.cell (.mortal h.view.top) = some none := by
  unfold Heap.growMortals
  have hlen : h.top ≤ h.mortals.length := by
    apply Classical.byContradiction
    intro hn
    obtain ⟨c, hc⟩ := hm.1 h.mortals.length (by show _ < h.top; omega)
    have hc' : h.mortals[h.mortals.length]? = some c := hc
    simp at hc'
  have h0 : 0 < h.mortals.length := by
    obtain ⟨c, hc⟩ := hm.2.2
    exact (List.getElem?_eq_some_iff.mp (show h.mortals[0]? = some c from hc)).1
  by_cases ht : h.top ≥ h.mortals.length
  · rw [if_pos ht]
    by_cases hcap : h.mortals.length * 2 ≤ 2147483647
    · rw [if_pos hcap]
      refine .inr ⟨_, rfl, ?_⟩
      have hview : ∀ k, (Heap.view { h with mortals := h.mortals ++ List.replicate h.mortals.length none }).cell k =
          match k with
          | .mortal i => if i < h.mortals.length then h.view.cell (.mortal i) else if i < 2 * h.mortals.length then some none else none
          | k => h.view.cell k := by
        intro k
        cases k with
        | var i => rfl
        | slot b i => rfl
        | mortal i =>
          simp only [Heap.view, Heap.cell, List.getElem?_append, List.getElem?_replicate]
          by_cases hi : i < h.mortals.length
          · simp [hi]
          · rw [if_neg hi, if_neg hi]
            by_cases hi2 : i < 2 * h.mortals.length
            · rw [if_pos (by omega), if_pos hi2]
            · rw [if_neg (by omega), if_neg hi2]
      have hnone : ∀ i, h.mortals.length ≤ i → h.view.cell (.mortal i) = none := by
        intro i hi
        show h.mortals[i]? = none
        exact List.getElem?_eq_none hi
      have hp : ∀ k p, (Heap.view { h with mortals := h.mortals ++ List.replicate h.mortals.length none }).cell k = some (some p) ↔
          h.view.cell k = some (some p) := by
        intro k p
        rw [hview]
        cases k with
        | var i => rfl
        | slot b i => rfl
        | mortal i =>
          simp only
          by_cases hi : i < h.mortals.length
          · rw [if_pos hi]
          · rw [if_neg hi, hnone i (by omega)]
            split <;> simp
      refine ⟨?_, ?_, ?_, rfl, rfl, ?_⟩
      · constructor
        · exact hv.fresh
        · intro b o hb
          obtain ⟨L, ⟨h2, h3⟩, h4⟩ := hv.count b o hb
          exact ⟨L, ⟨h2, fun k => by rw [h3, hp]⟩, h4⟩
        · intro k p hk; exact hv.live k p ((hp k p).mp hk)
        · intro b o hb
          obtain ⟨h2, h3⟩ := hv.back b o hb
          exact ⟨h2, fun k => by rw [h3, hp]⟩
        · exact hv.pos
        · exact hv.phl
        · intro k b hk; exact hv.wk k b ((hp k _).mp hk)
        · intro b i; rw [hview]; exact hv.sl b i
      · refine ⟨fun i hi => ?_, fun i c hi hc => ?_, ?_⟩
        · rw [hview]
          have : i < h.top := hi
          simp only
          rw [if_pos (by omega)]
          exact hm.1 i hi
        · rw [hview] at hc
          have : h.top ≤ i := hi
          simp only at hc
          rw [if_neg (by omega)] at hc
          split at hc
          · cases hc; rfl
          · cases hc
        · rw [hview]; simp only; rw [if_pos h0]; exact hm.2.2
      · refine ⟨Nat.le_refl _, Nat.le_refl _, fun i hi => ?_, fun b o hb _ => ⟨o, hb, rfl, rfl⟩, fun b hb i hbi => ?_⟩
        · rw [hview]
          have : i < h.top := hi
          simp only
          rw [if_pos (by omega)]
        · rw [hview]; exact hbi
      · rw [hview]
        have ht' : h.view.top = h.top := rfl
        simp only [ht']
        rw [if_neg (by omega), if_pos (by omega)]
    · rw [if_neg hcap]; exact .inl rfl
  · rw [if_neg ht]
    refine .inr ⟨h, rfl, hv, hm, Frame.refl _ _, rfl, rfl, ?_⟩
    have ht' : h.view.top = h.top := rfl
    have hlt : h.top < h.mortals.length := by omega
    have hc : h.view.cell (.mortal h.top) = some (h.mortals[h.top]) := by
      show h.mortals[h.top]? = _
      exact List.getElem?_eq_getElem hlt
    rw [ht', hc, hm.2.1 h.top _ (Nat.le_refl _) hc]

/-! ### all runs -/

theorem setCell_mort {v : View} {l : Loc} {c : Cell} (hm : Mort v) (hl : ∃ c0, v.cell l = some c0)
    (h : c = none ∨ ∀ i, l = .mortal i → i < v.top) : Mort (v.setCell l c) := by
  refine ⟨fun i hi => ?_, fun i c' hi hc => ?_, ?_⟩
  · simp only [View.setCell]
    split
    · exact ⟨_, rfl⟩
    · exact hm.1 i hi
  · simp only [View.setCell] at hc
    split at hc
    · cases hc
      rcases h with h | h
      · exact h
      · rename_i hk
        have h1 := h i hk.symm
        have h2 : v.top ≤ i := hi
        omega
    · exact hm.2.1 i c' hi hc
  · simp only [View.setCell]
    split
    · exact ⟨_, rfl⟩
    · exact hm.2.2

/-- `Mort` depends on the places and the top only. -/
theorem mort_congr {v w : View} (hm : Mort v) (hc : ∀ k, w.cell k = v.cell k) (ht : w.top = v.top) : Mort w := by
  refine ⟨fun i hi => ?_, fun i c hi h => ?_, ?_⟩
  · rw [hc]; exact hm.1 i (by omega)
  · rw [hc] at h; exact hm.2.1 i c (by omega) h
  · rw [hc]; exact hm.2.2

/-- What holds before a command. -/
def Pre (dying ph : List Nat) (h : Heap) : Cmd → Prop
  | .assign l o => ∃ e, Inv h.view ph e ∧ (∀ a, e = some a → o = some a) ∧ Mort h.view ∧
      (∃ c, h.view.cell l = some c) ∧ (∀ a, o = some a → ∃ i, h.view.info a = some i) ∧
      (∀ a i, l = .slot a i → a ∈ dying → o = none) ∧ (∀ i, l = .mortal i → i < h.top)
  | .release a => Inv h.view (a :: ph) none ∧ Mort h.view
  | .clearSlots a i n => Inv h.view ph none ∧ Mort h.view ∧ a ∈ dying ∧
      (∃ o, h.view.info a = some o ∧ o.nslots = i + n) ∧ ∀ j, j < i → h.view.cell (.slot a j) = some none
  | .dtor a _ => Inv h.view ph none ∧ Mort h.view ∧ a ∈ ph
  | .push a => Inv h.view ph none ∧ Mort h.view ∧ ∃ o, h.view.info a = some o
  | .leave k i => Inv h.view ph none ∧ Mort h.view ∧ k ≤ i ∧ i ≤ h.top ∧
      ∀ j, k ≤ j → j < i → h.view.cell (.mortal j) = some none
  | .weaken l => Inv h.view ph none ∧ Mort h.view ∧ (∃ c, h.view.cell l = some c) ∧ ∃ a i, l = .slot a i
  | .op _ => Inv h.view ph none ∧ Mort h.view
  | .ops _ => Inv h.view ph none ∧ Mort h.view

/-- What holds after a command. -/
def Post (dying : List Nat) (h h' : Heap) : Cmd → Prop
  | .assign l o => Frame dying (h.view.setCell l (o.map fun a => ⟨a, false⟩)) h'.view ∧ h'.top = h.top
  | .release _ => Frame dying h.view h'.view ∧ h'.top = h.top
  | .clearSlots a i n => Frame dying h.view h'.view ∧ h'.top = h.top ∧ ∀ j, j < i + n → h'.view.cell (.slot a j) = some none
  | .dtor _ _ => Frame dying h.view h'.view ∧ h'.top = h.top
  | .push a => Frame dying h.view h'.view ∧ h'.top = h.top + 1 ∧ h'.view.cell (.mortal h.top) = some (some ⟨a, false⟩)
  | .leave k _ => Frame dying { h.view with top := k } h'.view ∧ h'.top = k
  | .weaken _ => Frame dying h.view h'.view ∧ h'.top = h.top
  | .op _ => Frame dying h.view h'.view
  | .ops _ => Frame dying h.view h'.view

def Good (D : Dtors) (f : Nat) : Prop :=
  ∀ (dying ph : List Nat) (c : Cmd) (h : Heap), (∀ b, b ∈ dying → b ∈ ph) → Pre dying ph h c →
    go D true f dying c h = .refill ∨ go D true f dying c h = .limit ∨
    ∃ h', go D true f dying c h = .ok h' ∧ Inv h'.view ph none ∧ Mort h'.view ∧ Post dying h h' c

/-- A frame relative to the stored view is a frame relative to the view before, except for the place itself. -/
theorem frame_of_setCell {dying : List Nat} {v v' : View} {l : Loc} {c : Cell}
    (h : Frame dying (v.setCell l c) v') (h1 : ∀ i, l = .mortal i → v.top ≤ i)
    (h2 : ∀ a i, l = .slot a i → a ∈ dying → c = none) : Frame dying v v' where
  next := h.next
  top := h.top
  mort := fun i hi => by
    rw [h.mort i hi]
    simp only [View.setCell]
    rw [if_neg]
    intro hk
    have := h1 i hk.symm
    omega
  old := h.old
  dy := fun a ha i hi => by
    apply h.dy a ha i
    simp only [View.setCell]
    split
    · rename_i hk; rw [h2 a i hk.symm ha]
    · exact hi

theorem good_assign {D : Dtors} {f : Nat} (ih : Good D f) {dying ph : List Nat} {l : Loc} {o : Option Nat} {h : Heap}
    (hd : ∀ b, b ∈ dying → b ∈ ph) (hp : Pre dying ph h (.assign l o)) :
    go D true (f + 1) dying (.assign l o) h = .refill ∨ go D true (f + 1) dying (.assign l o) h = .limit ∨
    ∃ h', go D true (f + 1) dying (.assign l o) h = .ok h' ∧ Inv h'.view ph none ∧ Mort h'.view ∧
      Post dying h h' (.assign l o) := by
  obtain ⟨e, hv, he, hm, ⟨c, hc⟩, ho, hdy, hmo⟩ := hp
  obtain ⟨h1, e1, hv1, hc1, hn1, ht1, hi1⟩ := store_ok hv hc ho he
  have hm1 : Mort h1.view := by
    refine mort_congr (setCell_mort (l := l) (c := o.map fun a => ⟨a, false⟩) hm ⟨c, hc⟩ (.inr hmo)) ?_ ht1
    intro k; rw [hc1]; rfl
  have hfr : Frame dying (h.view.setCell l (o.map fun a => ⟨a, false⟩)) h1.view := by
    refine ⟨Nat.le_of_eq hn1.symm, Nat.le_of_eq ht1.symm, fun i _ => by rw [hc1]; rfl, fun a o' ha _ => ?_, fun a ha i hi => ?_⟩
    · have := hi1 a
      rw [ha] at this
      cases hh : h.view.info a with
      | none => rw [hh] at this; cases this
      | some o0 =>
        rw [hh] at this
        simp only [Option.map_some, Option.some.injEq, Prod.mk.injEq] at this
        exact ⟨o0, hh, this.2, this.1⟩
    · rw [hc1]; exact hi
  unfold go
  rw [e1]
  simp only [Res.ok_bind]
  cases c with
  | none => exact .inr (.inr ⟨h1, rfl, hv1, hm1, hfr, ht1⟩)
  | some p =>
    simp only [Option.map_some]
    rcases ih dying ph (.release p.addr) h1 hd ⟨hv1, hm1⟩ with h2 | h2 | ⟨h2, e2, hv2, hm2, hf2, ht2⟩
    · exact .inl h2
    · exact .inr (.inl h2)
    · exact .inr (.inr ⟨h2, e2, hv2, hm2, hfr.trans hf2, ht2.trans ht1⟩)

theorem good_release {D : Dtors} {f : Nat} (ih : Good D f) {dying ph : List Nat} {a : Nat} {h : Heap}
    (hd : ∀ b, b ∈ dying → b ∈ ph) (hp : Pre dying ph h (.release a)) :
    go D true (f + 1) dying (.release a) h = .refill ∨ go D true (f + 1) dying (.release a) h = .limit ∨
    ∃ h', go D true (f + 1) dying (.release a) h = .ok h' ∧ Inv h'.view ph none ∧ Mort h'.view ∧
      Post dying h h' (.release a) := by
  obtain ⟨hv, hm⟩ := hp
  obtain ⟨o, ho⟩ := hv.phl a List.mem_cons_self
  obtain ⟨ob, e1, hob, hobi⟩ := obj_ok ho
  have hcnt : ob.count = o.count := by rw [← hobi]; rfl
  unfold go
  rw [e1]
  simp only [Res.ok_bind, hcnt]
  by_cases hc : o.count > 1
  · rw [if_pos hc]
    obtain ⟨h1, e2, v2⟩ := addCount_ok (d := -1) ⟨o, ho⟩
    refine .inr (.inr ⟨h1, e2, ?_, ?_, ?_, ?_⟩)
    · rw [v2]; exact inv_dec hv ho (.inl hc)
    · rw [v2]; exact hm
    · rw [v2]
      refine ⟨Nat.le_refl _, Nat.le_refl _, fun _ _ => rfl, fun b o' hb _ => ?_, fun _ _ _ h => h⟩
      obtain ⟨o0, h0, rfl⟩ := modInfo_some hb
      refine ⟨o0, h0, ?_⟩
      split <;> exact ⟨rfl, rfl⟩
    · exact congrArg View.top v2
  · rw [if_neg hc]
    have hph : a ∉ ph := by
      obtain ⟨L, _, hLc⟩ := hv.count a o ho
      rw [count_cons, if_pos rfl] at hLc
      intro hin
      have := List.count_pos_iff.mpr hin
      omega
    rcases ih dying (a :: ph) (.dtor a ob.cls) h (fun b hb => List.mem_cons_of_mem _ (hd b hb)) ⟨hv, hm, List.mem_cons_self⟩
      with h2 | h2 | ⟨h2, e2, hv2, hm2, hf2, ht2⟩
    · rw [h2]; exact .inl rfl
    · rw [h2]; exact .inr (.inl rfl)
    · rw [e2]
      simp only [Res.ok_bind]
      obtain ⟨o2, ho2⟩ := hv2.phl a List.mem_cons_self
      obtain ⟨ob2, e3, hob2, hobi2⟩ := obj_ok ho2
      rw [e3]
      simp only [Res.ok_bind]
      rcases ih (a :: dying) (a :: ph) (.clearSlots a 0 ob2.slots.length) h2
        (fun b hb => by
          rcases List.mem_cons.mp hb with rfl | hb
          · exact List.mem_cons_self
          · exact List.mem_cons_of_mem _ (hd b hb))
        ⟨hv2, hm2, List.mem_cons_self, ⟨o2, ho2, by rw [← hobi2]; simp [Obj.info]⟩, by omega⟩
        with h3 | h3 | ⟨h3, e4, hv3, hm3, hf3, ht3, hs3⟩
      · rw [h3]; exact .inl rfl
      · rw [h3]; exact .inr (.inl rfl)
      · rw [e4]
        simp only [Res.ok_bind]
        obtain ⟨h4, e5, hv4, hm4, hf4, ht4⟩ := finish_ok (dying := dying) hv3 hm3 hph hd (by
          intro i c hic
          obtain ⟨o3, ho3, hlt⟩ := (hv3.sl a i).mp ⟨c, hic⟩
          obtain ⟨o2', ho2', hn, _⟩ := hf3.old a o3 ho3 (by
            apply Classical.byContradiction
            intro hge
            rw [hv2.fresh a (by omega)] at ho2; cases ho2)
          rw [ho2] at ho2'
          cases ho2'
          have hl : o2.nslots = ob2.slots.length := by rw [← hobi2]; rfl
          have := hs3 i (by omega)
          rw [hic] at this
          cases this; rfl)
        exact .inr (.inr ⟨h4, e5, hv4, hm4,
          hf2.trans ((hf3.weaken fun b hb => List.mem_cons_of_mem _ hb).trans hf4), ht4.trans (ht3.trans ht2)⟩)

theorem good_clearSlots {D : Dtors} {f : Nat} (ih : Good D f) {dying ph : List Nat} {a i n : Nat} {h : Heap}
    (hd : ∀ b, b ∈ dying → b ∈ ph) (hp : Pre dying ph h (.clearSlots a i n)) :
    go D true (f + 1) dying (.clearSlots a i n) h = .refill ∨ go D true (f + 1) dying (.clearSlots a i n) h = .limit ∨
    ∃ h', go D true (f + 1) dying (.clearSlots a i n) h = .ok h' ∧ Inv h'.view ph none ∧ Mort h'.view ∧
      Post dying h h' (.clearSlots a i n) := by
  obtain ⟨hv, hm, had, ⟨o, ho, hn⟩, hz⟩ := hp
  cases n with
  | zero => exact .inr (.inr ⟨h, by unfold go; rfl, hv, hm, Frame.refl _ _, rfl, hz⟩)
  | succ n =>
    unfold go
    have hcell := (hv.sl a i).mpr ⟨o, ho, by omega⟩
    rcases ih dying ph (.assign (.slot a i) none) h hd
      ⟨none, hv, by simp, hm, hcell, by simp, fun _ _ _ _ => rfl, by simp⟩ with h1 | h1 | ⟨h1, e1, hv1, hm1, hf1, ht1⟩
    · rw [h1]; exact .inl rfl
    · rw [h1]; exact .inr (.inl rfl)
    · rw [e1]
      simp only [Res.ok_bind]
      have hf1' : Frame dying h.view h1.view := frame_of_setCell hf1 (by simp) (fun _ _ _ _ => rfl)
      obtain ⟨o1, ho1⟩ := hv1.phl a (hd a had)
      have hno : o1.nslots = o.nslots := by
        obtain ⟨o', ho', hn', _⟩ := hf1'.old a o1 ho1 (by
          apply Classical.byContradiction
          intro hge
          rw [hv.fresh a (by omega)] at ho; cases ho)
        rw [ho] at ho'; cases ho'; exact hn'
      rcases ih dying ph (.clearSlots a (i + 1) n) h1 hd
        ⟨hv1, hm1, had, ⟨o1, ho1, by omega⟩, fun j hj => by
          by_cases hji : j = i
          · subst hji
            apply hf1.dy a had
            simp [View.setCell]
          · exact hf1'.dy a had j (hz j (by omega))⟩ with h2 | h2 | ⟨h2, e2, hv2, hm2, hf2, ht2, hz2⟩
      · exact .inl h2
      · exact .inr (.inl h2)
      · exact .inr (.inr ⟨h2, e2, hv2, hm2, hf1'.trans hf2, ht2.trans ht1, fun j hj => hz2 j (by omega)⟩)

theorem good_push {D : Dtors} {f : Nat} {dying ph : List Nat} {a : Nat} {h : Heap}
    (hd : ∀ b, b ∈ dying → b ∈ ph) (hp : Pre dying ph h (.push a)) :
    go D true (f + 1) dying (.push a) h = .refill ∨ go D true (f + 1) dying (.push a) h = .limit ∨
    ∃ h', go D true (f + 1) dying (.push a) h = .ok h' ∧ Inv h'.view ph none ∧ Mort h'.view ∧
      Post dying h h' (.push a) := by
  obtain ⟨hv, hm, ha⟩ := hp
  unfold go
  rcases grow_ok (dying := dying) hv hm with hg | ⟨h1, e1, hv1, hm1, hf1, ht1, hi1, hc1⟩
  · rw [hg]; exact .inr (.inl rfl)
  · rw [e1]
    simp only [Res.ok_bind]
    have htop : h1.top = h.top := ht1
    have hc1' : h1.view.cell (.mortal h1.top) = some none := by rw [htop]; exact hc1
    cases f with
    | zero => unfold go; exact .inr (.inl rfl)
    | succ f =>
      obtain ⟨h2, e2, hv2, hc2, hn2, ht2, hi2⟩ := store_ok (object := some a) hv1 hc1'
        (fun b hb => by cases hb; rw [hi1]; exact ha) (by simp)
      unfold go
      rw [e2]
      simp only [Res.ok_bind, Option.map_none]
      have ht2' : h2.top = h.top := ht2.trans ht1
      have hc2' : ∀ k, h2.cell k = if k = .mortal h.top then some (some ⟨a, false⟩) else h1.view.cell k := by
        intro k; have := hc2 k; rw [htop] at this; exact this
      refine .inr (.inr ⟨_, rfl, ?_, ?_, ?_, ?_, ?_⟩)
      · exact { fresh := hv2.fresh, count := hv2.count, live := hv2.live, back := hv2.back, pos := hv2.pos, phl := hv2.phl
                wk := hv2.wk, sl := hv2.sl }
      · refine ⟨fun i hi => ?_, fun i c hi hc => ?_, ?_⟩
        · show ∃ c, h2.cell (.mortal i) = some c
          have hi' : i < h2.top + 1 := hi
          rw [hc2']
          split
          · exact ⟨_, rfl⟩
          · rename_i hne
            have : i ≠ h.top := fun hh => hne (by rw [hh])
            exact hm1.1 i (by show i < h1.top; omega)
        · have hi' : h2.top + 1 ≤ i := hi
          have hc' : h2.cell (.mortal i) = some c := hc
          rw [hc2', if_neg (by simp; omega)] at hc'
          exact hm1.2.1 i c (by show h1.top ≤ i; omega) hc'
        · show ∃ c, h2.cell (.mortal 0) = some c
          rw [hc2']
          split
          · exact ⟨_, rfl⟩
          · exact hm1.2.2
      · refine ⟨?_, ?_, ?_, ?_, ?_⟩
        · exact Nat.le_trans hf1.next (Nat.le_of_eq hn2.symm)
        · show h.top ≤ h2.top + 1; omega
        · intro i hi
          show h2.cell (.mortal i) = _
          have hi' : i < h.top := hi
          rw [hc2', if_neg (by simp; omega)]
          exact hf1.mort i hi
        · intro b o' hb hlt
          have := hi2 b
          have hb' : h2.view.info b = some o' := hb
          rw [hb', hi1] at this
          cases hh : h.view.info b with
          | none => rw [hh] at this; cases this
          | some o0 =>
            rw [hh] at this
            simp only [Option.map_some, Option.some.injEq, Prod.mk.injEq] at this
            exact ⟨o0, rfl, this.2, this.1⟩
        · intro b hb i hi
          show h2.cell (.slot b i) = _
          rw [hc2', if_neg (by simp)]
          exact hf1.dy b hb i hi
      · show h2.top + 1 = _; omega
      · show h2.cell (.mortal h.top) = _
        rw [hc2', if_pos rfl]

theorem good_leave {D : Dtors} {f : Nat} (ih : Good D f) {dying ph : List Nat} {k i : Nat} {h : Heap}
    (hd : ∀ b, b ∈ dying → b ∈ ph) (hp : Pre dying ph h (.leave k i)) :
    go D true (f + 1) dying (.leave k i) h = .refill ∨ go D true (f + 1) dying (.leave k i) h = .limit ∨
    ∃ h', go D true (f + 1) dying (.leave k i) h = .ok h' ∧ Inv h'.view ph none ∧ Mort h'.view ∧
      Post dying h h' (.leave k i) := by
  obtain ⟨hv, hm, hki, hit, hz⟩ := hp
  unfold go
  by_cases hlt : i < h.top
  · rw [if_pos hlt]
    rcases ih dying ph (.assign (.mortal i) none) h hd
      ⟨none, hv, by simp, hm, hm.1 i hlt, by simp, fun _ _ _ _ => rfl, fun j hj => by cases hj; exact hlt⟩
      with h1 | h1 | ⟨h1, e1, hv1, hm1, hf1, ht1⟩
    · rw [h1]; exact .inl rfl
    · rw [h1]; exact .inr (.inl rfl)
    · rw [e1]
      simp only [Res.ok_bind]
      have hmor : ∀ j, j < h.top → h1.view.cell (.mortal j) = if j = i then some none else h.view.cell (.mortal j) := by
        intro j hj
        rw [hf1.mort j hj]
        simp only [View.setCell, Loc.mortal.injEq, Option.map_none]
      rcases ih dying ph (.leave k (i + 1)) h1 hd
        ⟨hv1, hm1, by omega, by omega, fun j hj1 hj2 => by
          rw [hmor j (by omega)]
          split
          · rfl
          · exact hz j hj1 (by omega)⟩ with h2 | h2 | ⟨h2, e2, hv2, hm2, hf2, ht2⟩
      · exact .inl h2
      · exact .inr (.inl h2)
      · refine .inr (.inr ⟨h2, e2, hv2, hm2, ⟨?_, ?_, ?_, ?_, ?_⟩, ht2⟩)
        · exact Nat.le_trans hf1.next hf2.next
        · show k ≤ h2.top; omega
        · intro j hj
          have hj' : j < k := hj
          rw [hf2.mort j hj]
          show h1.view.cell (.mortal j) = h.view.cell (.mortal j)
          rw [hmor j (by omega), if_neg (by omega)]
        · intro b o' hb hlt'
          obtain ⟨o1, ho1, q1, q2⟩ := hf2.old b o' hb (by
            have := hf1.next
            exact Nat.lt_of_lt_of_le hlt' this)
          obtain ⟨o0, ho0, q3, q4⟩ := hf1.old b o1 ho1 hlt'
          exact ⟨o0, ho0, by omega, by omega⟩
        · intro b hb j hj
          apply hf2.dy b hb j
          exact hf1.dy b hb j (by simp only [View.setCell]; rw [if_neg (by simp)]; exact hj)
  · rw [if_neg hlt]
    have hit' : i = h.top := by omega
    refine .inr (.inr ⟨_, rfl, ?_, ?_, ?_, rfl⟩)
    · exact { fresh := hv.fresh, count := hv.count, live := hv.live, back := hv.back, pos := hv.pos, phl := hv.phl
              wk := hv.wk, sl := hv.sl }
    · refine ⟨fun j hj => ?_, fun j c hj hc => ?_, hm.2.2⟩
      · have hj' : j < k := hj
        exact hm.1 j (by show j < h.top; omega)
      · have hj' : k ≤ j := hj
        by_cases hjt : j < h.top
        · have := hz j hj' (by omega)
          have hc' : h.view.cell (.mortal j) = some c := hc
          rw [this] at hc'; cases hc'; rfl
        · exact hm.2.1 j c (by show h.top ≤ j; omega) hc
    · exact ⟨Nat.le_refl _, Nat.le_refl _, fun _ _ => rfl, fun b o hb _ => ⟨o, hb, rfl, rfl⟩, fun _ _ _ h => h⟩

theorem good_dtor {D : Dtors} {f : Nat} (ih : Good D f) {dying ph : List Nat} {a cls : Nat} {h : Heap}
    (hd : ∀ b, b ∈ dying → b ∈ ph) (hp : Pre dying ph h (.dtor a cls)) :
    go D true (f + 1) dying (.dtor a cls) h = .refill ∨ go D true (f + 1) dying (.dtor a cls) h = .limit ∨
    ∃ h', go D true (f + 1) dying (.dtor a cls) h = .ok h' ∧ Inv h'.view ph none ∧ Mort h'.view ∧
      Post dying h h' (.dtor a cls) := by
  obtain ⟨hv, hm, ha⟩ := hp
  unfold go
  by_cases hdt : D.hasDtor cls = true
  · rw [if_pos hdt]
    rcases ih dying ph (.push a) h hd ⟨hv, hm, hv.phl a ha⟩ with h1 | h1 | ⟨h1, e1, hv1, hm1, hf1, ht1, _⟩
    · rw [h1]; exact .inl rfl
    · rw [h1]; exact .inr (.inl rfl)
    · rw [e1]
      simp only [Res.ok_bind]
      rcases ih dying ph (.ops (D.body a h1)) h1 hd ⟨hv1, hm1⟩ with h2 | h2 | ⟨h2, e2, hv2, hm2, hf2⟩
      · rw [h2]; exact .inl rfl
      · rw [h2]; exact .inr (.inl rfl)
      · rw [e2]
        simp only [Res.ok_bind]
        have htop2 : h1.top ≤ h2.top := hf2.top
        rcases ih dying ph (.leave h.top h.top) h2 hd ⟨hv2, hm2, Nat.le_refl _, by omega, by omega⟩
          with h3 | h3 | ⟨h3, e3, hv3, hm3, hf3, ht3⟩
        · exact .inl h3
        · exact .inr (.inl h3)
        · refine .inr (.inr ⟨h3, e3, hv3, hm3, ?_, ht3⟩)
          have hf12 := hf1.trans hf2
          exact ⟨Nat.le_trans hf12.next hf3.next, Nat.le_of_eq ht3.symm,
            fun i hi => by rw [hf3.mort i hi]; exact hf12.mort i hi,
            fun b o' hb hlt => by
              obtain ⟨o1, ho1, q1, q2⟩ := hf3.old b o' hb (Nat.lt_of_lt_of_le hlt hf12.next)
              obtain ⟨o0, ho0, q3, q4⟩ := hf12.old b o1 ho1 hlt
              exact ⟨o0, ho0, by omega, by omega⟩,
            fun b hb i hi => hf3.dy b hb i (hf12.dy b hb i hi)⟩
  · rw [if_neg hdt]
    exact .inr (.inr ⟨h, rfl, hv, hm, Frame.refl _ _, rfl⟩)

theorem good_weaken {D : Dtors} {f : Nat} (ih : Good D f) {dying ph : List Nat} {l : Loc} {h : Heap}
    (hd : ∀ b, b ∈ dying → b ∈ ph) (hp : Pre dying ph h (.weaken l)) :
    go D true (f + 1) dying (.weaken l) h = .refill ∨ go D true (f + 1) dying (.weaken l) h = .limit ∨
    ∃ h', go D true (f + 1) dying (.weaken l) h = .ok h' ∧ Inv h'.view ph none ∧ Mort h'.view ∧
      Post dying h h' (.weaken l) := by
  obtain ⟨hv, hm, ⟨c, hc⟩, hsl⟩ := hp
  unfold go
  rw [read_ok hc]
  simp only [Res.ok_bind]
  cases c with
  | none => exact .inr (.inr ⟨h, rfl, hv, hm, Frame.refl _ _, rfl⟩)
  | some p =>
    obtain ⟨b, w⟩ := p
    cases w with
    | true => exact .inr (.inr ⟨h, rfl, hv, hm, Frame.refl _ _, rfl⟩)
    | false =>
      obtain ⟨o, ho⟩ := hv.live l _ hc
      simp only at ho
      obtain ⟨ob, e1, hob, hobi⟩ := obj_ok ho
      have hcnt : ob.count = o.count := by rw [← hobi]; rfl
      simp only [e1, Res.ok_bind, hcnt, if_neg (show ¬ (false = true) by simp)]
      have hml : ∀ i, l = .mortal i → i < h.view.top := by
        obtain ⟨a, i, rfl⟩ := hsl; simp
      by_cases hone : o.count = 1
      · rw [if_pos hone]
        obtain ⟨h1, e2, v2⟩ := write_ok (c := none) ⟨_, hc⟩
        rw [e2]
        simp only [Res.ok_bind]
        rcases ih dying ph (.release b) h1 hd
          ⟨by rw [v2]; exact inv_clear hv hc, by rw [v2]; exact setCell_mort hm ⟨_, hc⟩ (.inl rfl)⟩
          with h3 | h3 | ⟨h3, e3, hv3, hm3, hf3, ht3⟩
        · exact .inl h3
        · exact .inr (.inl h3)
        · refine .inr (.inr ⟨h3, e3, hv3, hm3, ?_, ?_⟩)
          · rw [v2] at hf3
            refine frame_of_setCell hf3 ?_ (fun _ _ _ _ => rfl)
            obtain ⟨a, i, rfl⟩ := hsl; simp
          · rw [ht3]; exact congrArg View.top v2
      · rw [if_neg hone]
        obtain ⟨h1, e2, v2⟩ := write_ok (c := some ⟨b, true⟩) ⟨_, hc⟩
        obtain ⟨h2, e3, v3⟩ := addCount_ok (h := h1) (a := b) (d := -1) (by rw [v2]; exact ⟨o, ho⟩)
        obtain ⟨h3, e4, v4⟩ := setBackrefs_ok (h := h2) (a := b) (f := fun ls => ls ++ [l])
          (by rw [v3, v2]; exact ⟨_, modInfo_of_some (v := h.view.setCell l (some ⟨b, true⟩)) (b := b) ho⟩)
        simp only [e2, e3, e4, Res.ok_bind]
        have hpos := hv.pos b o ho (by simp)
        -- the same view reached through the invariant steps
        have i1 := inv_clear hv hc
        have i2 := inv_dec (o := o) i1 ho (.inl (by omega))
        have i3 := inv_setWeak (l := l) (b := b) i2 (by simp [View.addCount, View.modInfo, View.setCell])
          ⟨_, modInfo_of_some (v := h.view.setCell l none) (b := b) ho⟩ hsl
        have heq : h3.view = (((h.view.setCell l none).addCount b (-1)).setCell l (some ⟨b, true⟩)).setBack b (fun ls => ls ++ [l]) := by
          rw [v4, v3, v2]
          apply View.ext'
          · intro k
            simp only [View.setBack, View.addCount, View.modInfo, View.setCell]
            split <;> rfl
          · intro c
            simp only [View.setBack, View.addCount, View.modInfo, View.setCell]
          · rfl
          · rfl
        have hcell : ∀ k, h3.view.cell k = (h.view.setCell l (some ⟨b, true⟩)).cell k := by
          intro k; rw [v4, v3, v2]; rfl
        refine .inr (.inr ⟨h3, rfl, by rw [heq]; exact i3, ?_, ?_, ?_⟩)
        · exact mort_congr (setCell_mort (c := some ⟨b, true⟩) hm ⟨_, hc⟩ (.inr hml)) hcell (by rw [heq]; rfl)
        · refine ⟨by rw [heq]; exact Nat.le_refl _, by rw [heq]; exact Nat.le_refl _, fun i _ => ?_, fun a o' ha _ => ?_, fun a _ i hi => ?_⟩
          · rw [hcell]
            simp only [View.setCell]
            rw [if_neg]
            rintro rfl
            obtain ⟨_, _, hk⟩ := hsl
            cases hk
          · rw [v4, v3, v2] at ha
            obtain ⟨o1, h1', rfl⟩ := modInfo_some (v := (h.view.setCell l (some ⟨b, true⟩)).addCount b (-1)) ha
            obtain ⟨o0, h0, rfl⟩ := modInfo_some (v := h.view.setCell l (some ⟨b, true⟩)) h1'
            refine ⟨o0, h0, ?_⟩
            by_cases hab : a = b
            · simp [hab]
            · simp [hab]
          · rw [hcell]
            simp only [View.setCell]
            rw [if_neg]
            · exact hi
            · rintro rfl
              rw [hc] at hi; cases hi
        · exact congrArg View.top heq

theorem val_live {h : Heap} {ph : List Nat} {e : Option Nat} (hv : Inv h.view ph e) {r : Ref} {a : Nat}
    (ha : h.val r = some a) : ∃ o, h.view.info a = some o := by
  unfold Heap.val at ha
  split at ha
  · rename_i p hp
    cases ha
    exact hv.live _ _ hp
  · cases ha

theorem slotOf_spec {h : Heap} {r : Ref} {i a : Nat} {c : Cell} (hs : h.slotOf r i = some (a, c)) :
    h.val r = some a ∧ h.view.cell (.slot a i) = some c := by
  unfold Heap.slotOf at hs
  split at hs
  · cases hs
  · rename_i b hb
    split at hs
    · cases hs
    · rename_i c' hc
      cases hs
      exact ⟨hb, hc⟩

theorem var_cell {h : Heap} {x : Nat} (hx : x < h.vars.length) : ∃ c, h.view.cell (.var x) = some c :=
  ⟨h.vars[x], List.getElem?_eq_getElem hx⟩

theorem unweaken_frame {h h' : Heap} {dying : List Nat} {a i : Nat} {c : Cell} (hc : h.view.cell (.slot a i) = some c)
    (e : h'.view = h.view.unweakCell (.slot a i) c) : Frame dying h.view h'.view ∧ (Mort h.view → Mort h'.view) := by
  rw [e]
  unfold View.unweakCell
  split
  · rename_i b
    refine ⟨⟨Nat.le_refl _, Nat.le_refl _, fun i _ => ?_, fun x o' hx _ => ?_, fun x _ j hj => ?_⟩, fun hm => ?_⟩
    · simp [View.unweak, View.setBack, View.addCount, View.modInfo, View.setCell]
    · obtain ⟨o1, h1', rfl⟩ := modInfo_some (v := (h.view.setCell (.slot a _) (some ⟨b, false⟩)).addCount b 1) hx
      obtain ⟨o0, h0, rfl⟩ := modInfo_some (v := h.view.setCell (.slot a _) (some ⟨b, false⟩)) h1'
      refine ⟨o0, h0, ?_⟩
      by_cases hab : x = b
      · simp [hab]
      · simp [hab]
    · simp only [View.unweak, View.setBack, View.addCount, View.modInfo, View.setCell]
      rw [if_neg]
      · exact hj
      · intro hk; rw [hk, hc] at hj; cases hj
    · exact mort_congr (setCell_mort (l := .slot a i) (c := some ⟨b, false⟩) hm ⟨_, hc⟩ (.inr (by simp))) (fun _ => rfl) rfl
  · exact ⟨Frame.refl _ _, id⟩

theorem good_op {D : Dtors} {f : Nat} (ih : Good D f) {dying ph : List Nat} {o : Op} {h : Heap}
    (hd : ∀ b, b ∈ dying → b ∈ ph) (hp : Pre dying ph h (.op o)) :
    go D true (f + 1) dying (.op o) h = .refill ∨ go D true (f + 1) dying (.op o) h = .limit ∨
    ∃ h', go D true (f + 1) dying (.op o) h = .ok h' ∧ Inv h'.view ph none ∧ Mort h'.view ∧
      Post dying h h' (.op o) := by
  obtain ⟨hv, hm⟩ := hp
  have hskip : ∀ {r : Res Heap}, r = .ok h → (r = .refill ∨ r = .limit ∨
      ∃ h', r = .ok h' ∧ Inv h'.view ph none ∧ Mort h'.view ∧ Post dying h h' (.op o)) :=
    fun e => .inr (.inr ⟨h, e, hv, hm, Frame.refl _ _⟩)
  -- assignment to a variable
  have hvar : ∀ {x : Nat} {v : Option Nat}, x < h.vars.length → (∀ a, v = some a → ∃ i, h.view.info a = some i) →
      (go D true f dying (.assign (.var x) v) h = .refill ∨ go D true f dying (.assign (.var x) v) h = .limit ∨
      ∃ h', go D true f dying (.assign (.var x) v) h = .ok h' ∧ Inv h'.view ph none ∧ Mort h'.view ∧ Post dying h h' (.op o)) := by
    intro x v hx hval
    rcases ih dying ph (.assign (.var x) v) h hd ⟨none, hv, by simp, hm, var_cell hx, hval, by simp, by simp⟩
      with h1 | h1 | ⟨h1, e1, hv1, hm1, hf1, ht1⟩
    · exact .inl h1
    · exact .inr (.inl h1)
    · exact .inr (.inr ⟨h1, e1, hv1, hm1, frame_of_setCell hf1 (by simp) (by simp)⟩)
  have hslot : ∀ {a i : Nat} {v : Option Nat} {c : Cell}, h.view.cell (.slot a i) = some c →
      (∀ a, v = some a → ∃ i, h.view.info a = some i) → (a ∈ dying → v = none) →
      (go D true f dying (.assign (.slot a i) v) h = .refill ∨ go D true f dying (.assign (.slot a i) v) h = .limit ∨
      ∃ h', go D true f dying (.assign (.slot a i) v) h = .ok h' ∧ Inv h'.view ph none ∧ Mort h'.view ∧ Post dying h h' (.op o)) := by
    intro a i v c hc hval hdy
    rcases ih dying ph (.assign (.slot a i) v) h hd
      ⟨none, hv, by simp, hm, ⟨c, hc⟩, hval, fun _ _ hk ha => by cases hk; exact hdy ha, by simp⟩
      with h1 | h1 | ⟨h1, e1, hv1, hm1, hf1, ht1⟩
    · exact .inl h1
    · exact .inr (.inl h1)
    · exact .inr (.inr ⟨h1, e1, hv1, hm1, frame_of_setCell hf1 (by simp) (fun _ _ hk ha => by cases hk; rw [hdy ha]; rfl)⟩)
  cases o with
  | new x n cls =>
    unfold go
    by_cases hx : x < h.vars.length
    · rw [if_pos hx]
      rcases ih dying ph (.assign (.var x) (some h.next)) (h.alloc n cls) hd
        ⟨some h.next, inv_alloc hv, fun a ha => ha, mort_alloc hm, var_cell (h := h.alloc n cls) hx,
          fun a ha => by
            cases ha
            rw [view_alloc]
            exact ⟨_, if_pos rfl⟩, by simp, by simp⟩
        with h1 | h1 | ⟨h1, e1, hv1, hm1, hf1, ht1⟩
      · exact .inl h1
      · exact .inr (.inl h1)
      · exact .inr (.inr ⟨h1, e1, hv1, hm1, (frame_alloc hv hd).trans (frame_of_setCell hf1 (by simp) (by simp))⟩)
    · rw [if_neg hx]; exact hskip rfl
  | move x y =>
    unfold go
    by_cases hx : x < h.vars.length
    · rw [if_pos hx]
      exact hvar hx (fun a ha => val_live hv ha)
    · rw [if_neg hx]; exact hskip rfl
  | clear x =>
    unfold go
    by_cases hx : x < h.vars.length
    · rw [if_pos hx]
      exact hvar hx (by simp)
    · rw [if_neg hx]; exact hskip rfl
  | getField x y i =>
    unfold go
    cases hs : h.slotOf y i with
    | none => exact hskip rfl
    | some ac =>
      obtain ⟨a, c⟩ := ac
      have := slotOf_spec hs
      simp only []
      by_cases hx : x < h.vars.length
      · rw [if_pos hx]
        refine hvar hx (fun b hb => ?_)
        cases c with
        | none => cases hb
        | some p => cases hb; exact hv.live _ _ this.2
      · rw [if_neg hx]; exact hskip rfl
  | setField y i x =>
    unfold go
    cases hs : h.slotOf y i with
    | none => exact hskip rfl
    | some ac =>
      obtain ⟨a, c⟩ := ac
      have := slotOf_spec hs
      simp only []
      by_cases hr : True ∧ a ∈ dying ∧ h.val x ≠ none
      · rw [if_pos hr]; exact .inl rfl
      · rw [if_neg hr]
        refine hslot this.2 (fun b hb => val_live hv hb) (fun ha => ?_)
        apply Classical.byContradiction
        intro hne
        exact hr ⟨trivial, ha, hne⟩
  | clearField y i =>
    unfold go
    cases hs : h.slotOf y i with
    | none => exact hskip rfl
    | some ac =>
      obtain ⟨a, c⟩ := ac
      have := slotOf_spec hs
      exact hslot this.2 (by simp) (fun _ => rfl)
  | weaken y i =>
    unfold go
    cases hs : h.slotOf y i with
    | none => exact hskip rfl
    | some ac =>
      obtain ⟨a, c⟩ := ac
      have := slotOf_spec hs
      rcases ih dying ph (.weaken (.slot a i)) h hd ⟨hv, hm, ⟨c, this.2⟩, ⟨a, i, rfl⟩⟩
        with h1 | h1 | ⟨h1, e1, hv1, hm1, hf1, ht1⟩
      · exact .inl h1
      · exact .inr (.inl h1)
      · exact .inr (.inr ⟨h1, e1, hv1, hm1, hf1⟩)
  | unweaken y i =>
    unfold go
    cases hs : h.slotOf y i with
    | none => exact hskip rfl
    | some ac =>
      obtain ⟨a, c⟩ := ac
      have := slotOf_spec hs
      obtain ⟨h1, e1, v1⟩ := unweaken_ok hv this.2
      obtain ⟨hf, hmm⟩ := unweaken_frame (dying := dying) this.2 v1
      refine .inr (.inr ⟨h1, e1, ?_, hmm hm, hf⟩)
      rw [v1]
      unfold View.unweakCell
      split
      · exact inv_unweak hv this.2
      · exact hv
  | pushMortal y =>
    unfold go
    cases hs : h.val y with
    | none => exact hskip rfl
    | some a =>
      rcases ih dying ph (.push a) h hd ⟨hv, hm, val_live hv hs⟩
        with h1 | h1 | ⟨h1, e1, hv1, hm1, hf1, _⟩
      · exact .inl h1
      · exact .inr (.inl h1)
      · exact .inr (.inr ⟨h1, e1, hv1, hm1, hf1⟩)
  | scope body =>
    unfold go
    rcases ih dying ph (.ops body) h hd ⟨hv, hm⟩ with h1 | h1 | ⟨h1, e1, hv1, hm1, hf1⟩
    · rw [h1]; exact .inl rfl
    · rw [h1]; exact .inr (.inl rfl)
    · rw [e1]
      simp only [Res.ok_bind]
      rcases ih dying ph (.leave h.top h.top) h1 hd ⟨hv1, hm1, Nat.le_refl _, hf1.top, by omega⟩
        with h3 | h3 | ⟨h3, e3, hv3, hm3, hf3, ht3⟩
      · exact .inl h3
      · exact .inr (.inl h3)
      · refine .inr (.inr ⟨h3, e3, hv3, hm3, ?_⟩)
        exact ⟨Nat.le_trans hf1.next hf3.next, Nat.le_of_eq ht3.symm,
          fun i hi => by rw [hf3.mort i hi]; exact hf1.mort i hi,
          fun b o' hb hlt => by
            obtain ⟨o1, ho1, q1, q2⟩ := hf3.old b o' hb (Nat.lt_of_lt_of_le hlt hf1.next)
            obtain ⟨o0, ho0, q3, q4⟩ := hf1.old b o1 ho1 hlt
            exact ⟨o0, ho0, by omega, by omega⟩,
          fun b hb i hi => hf3.dy b hb i (hf1.dy b hb i hi)⟩

theorem go_inv (D : Dtors) : ∀ f, Good D f := by
  intro f
  induction f with
  | zero => intro dying ph c h _ _; exact .inr (.inl (by unfold go; rfl))
  | succ f ih =>
    intro dying ph c h hd hp
    cases c with
    | assign l o => exact good_assign ih hd hp
    | release a => exact good_release ih hd hp
    | clearSlots a i n => exact good_clearSlots ih hd hp
    | dtor a cls => exact good_dtor ih hd hp
    | push a => exact good_push hd hp
    | leave k i => exact good_leave ih hd hp
    | weaken l => exact good_weaken ih hd hp
    | op o => exact good_op ih hd hp
    | ops os =>
      obtain ⟨hv, hm⟩ := hp
      cases os with
      | nil => exact .inr (.inr ⟨h, by unfold go; rfl, hv, hm, Frame.refl _ _⟩)
      | cons o rest =>
        unfold go
        rcases ih dying ph (.op o) h hd ⟨hv, hm⟩ with h1 | h1 | ⟨h1, e1, hv1, hm1, hf1⟩
        · rw [h1]; exact .inl rfl
        · rw [h1]; exact .inr (.inl rfl)
        · rw [e1]
          simp only [Res.ok_bind]
          rcases ih dying ph (.ops rest) h1 hd ⟨hv1, hm1⟩ with h2 | h2 | ⟨h2, e2, hv2, hm2, hf2⟩
          · exact .inl h2
          · exact .inr (.inl h2)
          · exact .inr (.inr ⟨h2, e2, hv2, hm2, hf1.trans hf2⟩)

theorem init_inv (n : Nat) : Inv (Heap.init n).view [] none ∧ Mort (Heap.init n).view := by
  have hcell : ∀ l p, (Heap.init n).view.cell l ≠ some (some p) := by
    intro l p
    cases l with
    | var i =>
      show (List.replicate n none)[i]? ≠ _
      rw [List.getElem?_replicate]; split <;> simp
    | mortal i =>
      show [none][i]? ≠ _
      cases i <;> simp
    | slot a i => show (none : Option Cell) ≠ _; simp
  refine ⟨⟨fun _ _ => rfl, fun _ _ h => (nomatch h), fun l p h => absurd h (hcell l p), fun _ _ h => (nomatch h),
    fun _ _ h => (nomatch h), by simp, fun l a h => absurd h (hcell l _), fun a i => ?_⟩, ?_⟩
  · constructor
    · rintro ⟨c, hc⟩; cases hc
    · rintro ⟨o, ho, _⟩; cases ho
  · refine ⟨fun i hi => ?_, fun i c _ hc => ?_, ⟨none, rfl⟩⟩
    · exact absurd hi (Nat.not_lt_zero _)
    · cases c with
      | none => rfl
      | some p => exact absurd hc (hcell _ p)

end SPVM.Heap
