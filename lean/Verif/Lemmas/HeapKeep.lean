import Verif.Lemmas.HeapRun
set_option linter.unusedSimpArgs false
set_option linter.unusedVariables false
/-! Releases without destructors: what happens to the objects that stay alive. -/
namespace SPVM.Heap

def View.Live (v : View) (a : Nat) : Prop := ∃ o, v.info a = some o

/-- Objects that are alive in `v'` and not being destroyed keep their fields; only weak references to objects that are
gone become `undef`. -/
structure Keep (dying : List Nat) (v v' : View) : Prop where
  live : ∀ b, v'.Live b → v.Live b
  strong : ∀ b i q, b ∉ dying → v.cell (.slot b i) = some (some ⟨q, false⟩) → v'.Live b →
    v'.cell (.slot b i) = some (some ⟨q, false⟩)
  weak : ∀ b i q, b ∉ dying → v.cell (.slot b i) = some (some ⟨q, true⟩) → v'.Live b →
    v'.cell (.slot b i) = some (some ⟨q, true⟩) ∨ (v'.cell (.slot b i) = some none ∧ ¬ v'.Live q)
  undef : ∀ b i, b ∉ dying → v.cell (.slot b i) = some none → v'.Live b → v'.cell (.slot b i) = some none

theorem Keep.refl (dying : List Nat) (v : View) : Keep dying v v :=
  ⟨fun _ h => h, fun _ _ _ _ h _ => h, fun _ _ _ _ h _ => .inl h, fun _ _ _ h _ => h⟩

theorem Keep.trans {dying : List Nat} {v v' v'' : View} (h1 : Keep dying v v') (h2 : Keep dying v' v'') : Keep dying v v'' := by
  refine ⟨fun b h => h1.live b (h2.live b h), fun b i q hb hc hl => ?_, fun b i q hb hc hl => ?_, fun b i hb hc hl => ?_⟩
  · exact h2.strong b i q hb (h1.strong b i q hb hc (h2.live b hl)) hl
  · rcases h1.weak b i q hb hc (h2.live b hl) with h | ⟨h, hn⟩
    · exact h2.weak b i q hb h hl
    · exact .inr ⟨h2.undef b i hb h hl, fun hq => hn (h2.live q hq)⟩
  · exact h2.undef b i hb (h1.undef b i hb hc (h2.live b hl)) hl

/-- Same cells and same set of objects. -/
theorem Keep.of_eq {dying : List Nat} {v v' : View} (hc : ∀ k, v'.cell k = v.cell k) (hl : ∀ b, v'.Live b → v.Live b) :
    Keep dying v v' :=
  ⟨hl, fun _ _ _ _ h _ => (hc _).trans h, fun _ _ _ _ h _ => .inl ((hc _).trans h), fun _ _ _ h _ => (hc _).trans h⟩

theorem modInfo_live {v : View} {a b : Nat} {f : Info → Info} (h : (v.modInfo a f).Live b) : v.Live b := by
  obtain ⟨o, ho⟩ := h
  obtain ⟨o', h1, _⟩ := modInfo_some ho
  exact ⟨o', h1⟩

theorem finish_keep {h h' : Heap} {a : Nat} {ph dying : List Nat} (he : h.finish a = .ok h') (hv : Inv h.view (a :: ph) none)
    {o : Info} (ho : h.view.info a = some o) (hone : o.count = 1) : Keep dying h.view h'.view ∧ ¬ h'.view.Live a := by
  obtain ⟨h1, e1, v1⟩ := addCount_ok (d := -1) ⟨o, ho⟩
  have ho1 : h1.view.info a = some { o with count := o.count + -1 } := by
    rw [v1]
    have := modInfo_of_some (a := a) (f := fun i => { i with count := i.count + -1 }) ho
    rw [if_pos rfl] at this
    exact this
  obtain ⟨ob, e2, hob, hobi⟩ := obj_ok ho1
  have hbk : ob.backrefs = o.backrefs := congrArg Info.backrefs hobi
  have hcn : ob.count = 0 := by
    have : ob.count = o.count + -1 := congrArg Info.count hobi
    omega
  unfold Heap.finish at he
  simp only [e1, e2, Res.ok_bind] at he
  rw [if_pos hcn] at he
  have hback := hv.back a o ho
  obtain ⟨h2, e3, c2, i2, n2, t2⟩ := freeBackrefs_ok (h := h1) (ls := ob.backrefs) (fun l hl => by
    rw [v1]; exact ⟨_, (hback.2 l).mp (by rwa [hbk] at hl)⟩)
  rw [e3] at he
  simp only [Res.ok_bind] at he
  cases he
  have hcell : ∀ b i, b ≠ a → (h2.setObj a none).view.cell (.slot b i) =
      if Loc.slot b i ∈ o.backrefs then some none else h.view.cell (.slot b i) := by
    intro b i hb
    rw [view_free]
    simp only [if_neg hb]
    rw [c2, hbk, v1]
    rfl
  have hdead : ¬ (h2.setObj a none).view.Live a := by
    rintro ⟨o', ho'⟩
    rw [view_free] at ho'
    simp at ho'
  have hlive : ∀ b, (h2.setObj a none).view.Live b → b ≠ a ∧ h.view.Live b := by
    rintro b ⟨o', ho'⟩
    rw [view_free] at ho'
    simp only at ho'
    split at ho'
    · cases ho'
    · rename_i hb
      rw [i2] at ho'
      exact ⟨hb, modInfo_live (v := h.view) (by rw [← View.addCount, ← v1]; exact ⟨o', ho'⟩)⟩
  refine ⟨⟨fun b hb => (hlive b hb).2, fun b i q _ hc hb => ?_, fun b i q _ hc hb => ?_, fun b i _ hc hb => ?_⟩, hdead⟩
  · rw [hcell b i (hlive b hb).1, if_neg]
    · exact hc
    · intro hm; rw [(hback.2 _).mp hm] at hc; cases hc
  · rw [hcell b i (hlive b hb).1]
    split
    · rename_i hm
      rw [(hback.2 _).mp hm] at hc
      cases hc
      exact .inr ⟨rfl, hdead⟩
    · exact .inl hc
  · rw [hcell b i (hlive b hb).1]
    split
    · rfl
    · exact hc

theorem nodtor_keep {D : Dtors} (hD : ∀ c, D.hasDtor c = false) : ∀ f dying ph c h h', Rel c →
    (∀ b, b ∈ dying → b ∈ ph) → Pre dying ph h c → go D true f dying c h = .ok h' → Keep dying (base h.view c) h'.view := by
  intro f
  induction f with
  | zero => intro dying ph c h h' _ _ _ he; unfold go at he; cases he
  | succ f ih =>
    intro dying ph c h h' hrel hd hp he
    cases c with
    | assign l o =>
      obtain ⟨e, hv, hee, hm, ⟨c, hc⟩, ho, hdy, hmo⟩ := hp
      obtain ⟨h1, e1, hv1, hc1, hn1, ht1, hi1⟩ := store_ok hv hc ho hee
      have s1 : Keep dying (h.view.setCell l (o.map fun a => ⟨a, false⟩)) h1.view := by
        refine Keep.of_eq (fun k => by rw [hc1]; rfl) ?_
        rintro b ⟨ob, hob⟩
        have := hi1 b
        rw [hob] at this
        cases hh : h.view.info b with
        | none => rw [hh] at this; cases this
        | some ob => exact ⟨ob, hh⟩
      unfold go at he
      rw [e1] at he
      simp only [Res.ok_bind] at he
      cases c with
      | none => cases he; exact s1
      | some p =>
        have hm1 : Mort h1.view := by
          refine mort_congr (setCell_mort (l := l) (c := o.map fun a => ⟨a, false⟩) hm ⟨_, hc⟩ (.inr hmo)) ?_ ht1
          intro k; rw [hc1]; rfl
        exact s1.trans (ih dying ph (.release p.addr) h1 h' trivial hd ⟨hv1, hm1⟩ he)
    | release a =>
      obtain ⟨hv, hm⟩ := hp
      obtain ⟨o, ho⟩ := hv.phl a List.mem_cons_self
      obtain ⟨ob, e1, hob, hobi⟩ := obj_ok ho
      unfold go at he
      rw [e1] at he
      simp only [Res.ok_bind] at he
      split at he
      · obtain ⟨h1, e2, v2⟩ := addCount_ok (d := -1) ⟨o, ho⟩
        rw [e2] at he
        cases he
        rw [v2]
        exact Keep.of_eq (fun _ => rfl) (fun b hb => modInfo_live hb)
      · rename_i hcnt
        have hcnt' : ob.count = o.count := by rw [← hobi]; rfl
        obtain ⟨L, ⟨hL1, hL2⟩, hL3⟩ := hv.count a o ho
        have hcc := count_cons a a ph
        rw [if_pos rfl] at hcc
        have hL0 : L = [] := by
          apply List.eq_nil_of_length_eq_zero
          omega
        have hph0 : ph.count a = 0 := by omega
        rcases go_inv D f dying (a :: ph) (.dtor a ob.cls) h (fun b hb => List.mem_cons_of_mem _ (hd b hb)) ⟨hv, hm, List.mem_cons_self⟩
          with h2 | h2 | ⟨h2, e2, hv2, hm2, hf2, ht2⟩
        · rw [h2] at he; cases he
        · rw [h2] at he; cases he
        · have k2 := ih dying (a :: ph) (.dtor a ob.cls) h h2 trivial (fun b hb => List.mem_cons_of_mem _ (hd b hb)) ⟨hv, hm, List.mem_cons_self⟩ e2
          have s2 := nodtor_shrink hD f dying (a :: ph) (.dtor a ob.cls) h h2 trivial (fun b hb => List.mem_cons_of_mem _ (hd b hb)) ⟨hv, hm, List.mem_cons_self⟩ e2
          rw [e2] at he
          simp only [Res.ok_bind] at he
          obtain ⟨o2, ho2⟩ := hv2.phl a List.mem_cons_self
          obtain ⟨ob2, e3, hob2, hobi2⟩ := obj_ok ho2
          rw [e3] at he
          simp only [Res.ok_bind] at he
          have hd' : ∀ b, b ∈ a :: dying → b ∈ a :: ph := fun b hb => by
            rcases List.mem_cons.mp hb with rfl | hb
            · exact List.mem_cons_self
            · exact List.mem_cons_of_mem _ (hd b hb)
          have hp3 : Pre (a :: dying) (a :: ph) h2 (.clearSlots a 0 ob2.slots.length) :=
            ⟨hv2, hm2, List.mem_cons_self, ⟨o2, ho2, by rw [← hobi2]; simp [Obj.info]⟩, by omega⟩
          rcases go_inv D f (a :: dying) (a :: ph) (.clearSlots a 0 ob2.slots.length) h2 hd' hp3
            with h3 | h3 | ⟨h3, e4, hv3, hm3, hf3, ht3, hs3⟩
          · rw [h3] at he; cases he
          · rw [h3] at he; cases he
          · have k3 := ih (a :: dying) (a :: ph) (.clearSlots a 0 ob2.slots.length) h2 h3 trivial hd' hp3 e4
            have s3 := nodtor_shrink hD f (a :: dying) (a :: ph) (.clearSlots a 0 ob2.slots.length) h2 h3 trivial hd' hp3 e4
            rw [e4] at he
            simp only [Res.ok_bind] at he
            obtain ⟨o3, ho3⟩ := hv3.phl a List.mem_cons_self
            obtain ⟨M, ⟨hM1, hM2⟩, hM3⟩ := hv3.count a o3 ho3
            have hM0 : M = [] := by
              cases M with
              | nil => rfl
              | cons l M =>
                have h1 := (hM2 l).mp List.mem_cons_self
                have h2 := s2.cells l _ (s3.cells l _ h1)
                have h3 := (hL2 l).mpr h2
                rw [hL0] at h3
                cases h3
            subst hM0
            have hone : o3.count = 1 := by
              rw [hM3, hcc, hph0]; rfl
            obtain ⟨k4, hdead⟩ := finish_keep (dying := a :: dying) he hv3 ho3 hone
            have k34 := k3.trans k4
            have k234 : Keep dying h2.view h'.view := by
              refine ⟨k34.live, fun b i q hb hc hl => ?_, fun b i q hb hc hl => ?_, fun b i hb hc hl => ?_⟩
              all_goals
                have hba : b ≠ a := by rintro rfl; exact hdead hl
                have hb' : b ∉ a :: dying := fun hh => by
                  rcases List.mem_cons.mp hh with h | h
                  · exact hba h
                  · exact hb h
              · exact k34.strong b i q hb' hc hl
              · exact k34.weak b i q hb' hc hl
              · exact k34.undef b i hb' hc hl
            exact Keep.trans (v := base h.view (.release a)) (v' := h2.view) k2 k234
    | clearSlots a i n =>
      obtain ⟨hv, hm, had, ⟨o, ho, hn⟩, hz⟩ := hp
      cases n with
      | zero => unfold go at he; cases he; exact Keep.refl _ _
      | succ n =>
        unfold go at he
        have hcell := (hv.sl a i).mpr ⟨o, ho, by omega⟩
        have hp1 : Pre dying ph h (.assign (.slot a i) none) :=
          ⟨none, hv, by simp, hm, hcell, by simp, fun _ _ _ _ => rfl, by simp⟩
        rcases go_inv D f dying ph (.assign (.slot a i) none) h hd hp1 with h1 | h1 | ⟨h1, e1, hv1, hm1, hf1, ht1⟩
        · rw [h1] at he; cases he
        · rw [h1] at he; cases he
        · have s1 := ih dying ph (.assign (.slot a i) none) h h1 trivial hd hp1 e1
          rw [e1] at he
          simp only [Res.ok_bind] at he
          have hf1' : Frame dying h.view h1.view := frame_of_setCell hf1 (by simp) (fun _ _ _ _ => rfl)
          obtain ⟨o1, ho1⟩ := hv1.phl a (hd a had)
          have hno : o1.nslots = o.nslots := by
            obtain ⟨o', ho', hn', _⟩ := hf1'.old a o1 ho1 (by
              apply Classical.byContradiction
              intro hge
              rw [hv.fresh a (by omega)] at ho; cases ho)
            rw [ho] at ho'; cases ho'; exact hn'
          have hp2 : Pre dying ph h1 (.clearSlots a (i + 1) n) :=
            ⟨hv1, hm1, had, ⟨o1, ho1, by omega⟩, fun j hj => by
              by_cases hji : j = i
              · subst hji
                apply hf1.dy a had
                simp [View.setCell]
              · exact hf1'.dy a had j (hz j (by omega))⟩
          have k0 : Keep dying h.view (h.view.setCell (.slot a i) none) := by
            have hne : ∀ b j, b ∉ dying → (h.view.setCell (.slot a i) none).cell (.slot b j) = h.view.cell (.slot b j) := by
              intro b j hb
              simp only [View.setCell]
              rw [if_neg]
              intro hh; cases hh; exact hb had
            exact ⟨fun _ h => h, fun b j q hb hc _ => (hne b j hb).trans hc, fun b j q hb hc _ => .inl ((hne b j hb).trans hc),
              fun b j hb hc _ => (hne b j hb).trans hc⟩
          exact k0.trans (s1.trans (ih dying ph (.clearSlots a (i + 1) n) h1 h' trivial hd hp2 he))
    | dtor a cls =>
      unfold go at he
      rw [hD, if_neg (by simp)] at he
      cases he; exact Keep.refl _ _
    | push a => exact absurd hrel id
    | leave k i => exact absurd hrel id
    | weaken l => exact absurd hrel id
    | op o => exact absurd hrel id
    | ops os => exact absurd hrel id

end SPVM.Heap
