import Verif.Lemmas.HeapGo
set_option linter.unusedSimpArgs false
set_option linter.unusedVariables false
/-! Runs of the heap model: strict and real runs agree, more steps do not change a result, destructor-free code only
removes references and terminates. -/
namespace SPVM.Heap

/-- `r` is unaffected when `x` changes to `y`, unless `x` is the value `bad`. -/
theorem bind_mono {α β : Type} {x y : Res α} {f g : α → Res β} {bad : Res β} {badx : Res α}
    (hb : ∀ f : α → Res β, (badx >>= f) = bad) (hxy : x ≠ badx → y = x)
    (hfg : ∀ a, x = .ok a → f a ≠ bad → g a = f a) (h : (x >>= f) ≠ bad) : (y >>= g) = (x >>= f) := by
  have hx : x ≠ badx := by rintro rfl; exact h (hb f)
  rw [hxy hx]
  cases x with
  | ok a => exact hfg a rfl h
  | ub => rfl
  | refill => rfl
  | limit => rfl

/-- A strict run that does not stop with `refill` is the run of the code. -/
theorem go_strict (D : Dtors) : ∀ f dying dying' c h, go D true f dying c h ≠ .refill →
    go D false f dying' c h = go D true f dying c h := by
  intro f
  induction f with
  | zero => intro dying dying' c h _; unfold go; rfl
  | succ f ih =>
    intro dying dying' c h
    cases c with
    | assign l o =>
      unfold go
      refine bind_mono (badx := .refill) (fun _ => rfl) (fun _ => rfl) (fun a _ ha => ?_)
      obtain ⟨released, h1⟩ := a
      cases released with
      | none => rfl
      | some a => exact ih _ _ _ _ ha
    | release a =>
      unfold go
      refine bind_mono (badx := .refill) (fun _ => rfl) (fun _ => rfl) (fun o _ ho => ?_)
      split
      · rfl
      · rename_i hc
        rw [if_neg hc] at ho
        refine bind_mono (badx := .refill) (fun _ => rfl) (fun h => ih _ _ _ _ h) (fun h1 _ h1' => ?_) ho
        refine bind_mono (badx := .refill) (fun _ => rfl) (fun _ => rfl) (fun o1 _ h2' => ?_) h1'
        exact bind_mono (badx := .refill) (fun _ => rfl) (fun h => ih _ _ _ _ h) (fun h3 _ h3' => rfl) h2'
    | clearSlots a i n =>
      cases n with
      | zero => intro _; unfold go; rfl
      | succ n =>
        unfold go
        exact bind_mono (badx := .refill) (fun _ => rfl) (fun h => ih _ _ _ _ h) (fun h1 _ h1' => ih _ _ _ _ h1')
    | dtor a cls =>
      unfold go
      split
      · refine bind_mono (badx := .refill) (fun _ => rfl) (fun h => ih _ _ _ _ h) (fun h1 _ h1' => ?_)
        refine bind_mono (badx := .refill) (fun _ => rfl) (fun h => ih _ _ _ _ h) (fun h2 _ h2' => ?_) h1'
        exact ih _ _ _ _ h2'
      · intro _; rfl
    | push a =>
      unfold go
      refine bind_mono (badx := .refill) (fun _ => rfl) (fun _ => rfl) (fun h1 _ h1' => ?_)
      exact bind_mono (badx := .refill) (fun _ => rfl) (fun h => ih _ _ _ _ h) (fun _ _ _ => rfl) h1'
    | leave k i =>
      unfold go
      split
      · exact bind_mono (badx := .refill) (fun _ => rfl) (fun h => ih _ _ _ _ h) (fun h1 _ h1' => ih _ _ _ _ h1')
      · intro _; rfl
    | weaken l =>
      unfold go
      refine bind_mono (badx := .refill) (fun _ => rfl) (fun _ => rfl) (fun c _ hc => ?_)
      cases c with
      | none => rfl
      | some p =>
        simp only at hc ⊢
        split
        · rfl
        · rename_i hw
          rw [if_neg hw] at hc
          refine bind_mono (badx := .refill) (fun _ => rfl) (fun _ => rfl) (fun o _ ho => ?_) hc
          split
          · rename_i h1
            rw [if_pos h1] at ho
            exact bind_mono (badx := .refill) (fun _ => rfl) (fun _ => rfl) (fun h2 _ h2' => ih _ _ _ _ h2') ho
          · rfl
    | op o =>
      cases o with
      | new x n cls =>
        unfold go
        split
        · exact ih _ _ _ _
        · intro _; rfl
      | move x y =>
        unfold go
        split
        · exact ih _ _ _ _
        · intro _; rfl
      | clear x =>
        unfold go
        split
        · exact ih _ _ _ _
        · intro _; rfl
      | getField x y i =>
        unfold go
        split
        · intro _; rfl
        · split
          · exact ih _ _ _ _
          · intro _; rfl
      | setField y i x =>
        unfold go
        split
        · intro _; rfl
        · simp only [Bool.false_eq_true, false_and, if_false, true_and]
          split
          · intro h; exact absurd rfl h
          · exact ih _ _ _ _
      | clearField y i =>
        unfold go
        split
        · intro _; rfl
        · exact ih _ _ _ _
      | weaken y i =>
        unfold go
        split
        · intro _; rfl
        · exact ih _ _ _ _
      | unweaken y i =>
        unfold go
        intro _; rfl
      | pushMortal y =>
        unfold go
        split
        · intro _; rfl
        · exact ih _ _ _ _
      | scope body =>
        unfold go
        exact bind_mono (badx := .refill) (fun _ => rfl) (fun h => ih _ _ _ _ h) (fun h1 _ h1' => ih _ _ _ _ h1')
    | ops os =>
      cases os with
      | nil => intro _; unfold go; rfl
      | cons o rest =>
        unfold go
        exact bind_mono (badx := .refill) (fun _ => rfl) (fun h => ih _ _ _ _ h) (fun h1 _ h1' => ih _ _ _ _ h1')

/-- More steps do not change a result. -/
theorem go_succ (D : Dtors) (strict : Bool) : ∀ f dying c h, go D strict f dying c h ≠ .limit →
    go D strict (f + 1) dying c h = go D strict f dying c h := by
  intro f
  induction f with
  | zero => intro dying c h hl; exact absurd (by unfold go; rfl) hl
  | succ f ih =>
    intro dying c h
    cases c with
    | assign l o =>
      rw [go, go]
      refine bind_mono (badx := .limit) (fun _ => rfl) (fun _ => rfl) (fun a _ ha => ?_)
      obtain ⟨released, h1⟩ := a
      cases released with
      | none => rfl
      | some a => exact ih _ _ _ ha
    | release a =>
      rw [go, go]
      refine bind_mono (badx := .limit) (fun _ => rfl) (fun _ => rfl) (fun o _ ho => ?_)
      split
      · rfl
      · rename_i hc
        rw [if_neg hc] at ho
        refine bind_mono (badx := .limit) (fun _ => rfl) (fun h => ih _ _ _ h) (fun h1 _ h1' => ?_) ho
        refine bind_mono (badx := .limit) (fun _ => rfl) (fun _ => rfl) (fun o1 _ h2' => ?_) h1'
        exact bind_mono (badx := .limit) (fun _ => rfl) (fun h => ih _ _ _ h) (fun h3 _ h3' => rfl) h2'
    | clearSlots a i n =>
      cases n with
      | zero => intro _; rw [go, go]
      | succ n =>
        rw [go, go]
        exact bind_mono (badx := .limit) (fun _ => rfl) (fun h => ih _ _ _ h) (fun h1 _ h1' => ih _ _ _ h1')
    | dtor a cls =>
      rw [go, go]
      split
      · refine bind_mono (badx := .limit) (fun _ => rfl) (fun h => ih _ _ _ h) (fun h1 _ h1' => ?_)
        refine bind_mono (badx := .limit) (fun _ => rfl) (fun h => ih _ _ _ h) (fun h2 _ h2' => ?_) h1'
        exact ih _ _ _ h2'
      · intro _; rfl
    | push a =>
      rw [go, go]
      refine bind_mono (badx := .limit) (fun _ => rfl) (fun _ => rfl) (fun h1 _ h1' => ?_)
      exact bind_mono (badx := .limit) (fun _ => rfl) (fun h => ih _ _ _ h) (fun _ _ _ => rfl) h1'
    | leave k i =>
      rw [go, go]
      split
      · exact bind_mono (badx := .limit) (fun _ => rfl) (fun h => ih _ _ _ h) (fun h1 _ h1' => ih _ _ _ h1')
      · intro _; rfl
    | weaken l =>
      rw [go, go]
      refine bind_mono (badx := .limit) (fun _ => rfl) (fun _ => rfl) (fun c _ hc => ?_)
      cases c with
      | none => rfl
      | some p =>
        simp only at hc ⊢
        split
        · rfl
        · rename_i hw
          rw [if_neg hw] at hc
          refine bind_mono (badx := .limit) (fun _ => rfl) (fun _ => rfl) (fun o _ ho => ?_) hc
          split
          · rename_i h1
            rw [if_pos h1] at ho
            exact bind_mono (badx := .limit) (fun _ => rfl) (fun _ => rfl) (fun h2 _ h2' => ih _ _ _ h2') ho
          · rfl
    | op o =>
      cases o with
      | new x n cls =>
        rw [go, go]
        split
        · exact ih _ _ _
        · intro _; rfl
      | move x y =>
        rw [go, go]
        split
        · exact ih _ _ _
        · intro _; rfl
      | clear x =>
        rw [go, go]
        split
        · exact ih _ _ _
        · intro _; rfl
      | getField x y i =>
        rw [go, go]
        split
        · intro _; rfl
        · split
          · exact ih _ _ _
          · intro _; rfl
      | setField y i x =>
        rw [go, go]
        split
        · intro _; rfl
        · split
          · intro _; rfl
          · exact ih _ _ _
      | clearField y i =>
        rw [go, go]
        split
        · intro _; rfl
        · exact ih _ _ _
      | weaken y i =>
        rw [go, go]
        split
        · intro _; rfl
        · exact ih _ _ _
      | unweaken y i =>
        rw [go, go]
        intro _; rfl
      | pushMortal y =>
        rw [go, go]
        split
        · intro _; rfl
        · exact ih _ _ _
      | scope body =>
        rw [go, go]
        exact bind_mono (badx := .limit) (fun _ => rfl) (fun h => ih _ _ _ h) (fun h1 _ h1' => ih _ _ _ h1')
    | ops os =>
      cases os with
      | nil => intro _; rw [go, go]
      | cons o rest =>
        rw [go, go]
        exact bind_mono (badx := .limit) (fun _ => rfl) (fun h => ih _ _ _ h) (fun h1 _ h1' => ih _ _ _ h1')

theorem go_mono (D : Dtors) (strict : Bool) {f g : Nat} (hfg : f ≤ g) {dying c h}
    (hl : go D strict f dying c h ≠ .limit) : go D strict g dying c h = go D strict f dying c h := by
  induction g with
  | zero => have : f = 0 := by omega
            subst this; rfl
  | succ g ih =>
    by_cases hfe : f = g + 1
    · subst hfe; rfl
    · have h1 := ih (by omega)
      rw [go_succ _ _ _ _ _ _ (by rw [h1]; exact hl), h1]

/-! ### code without destructors -/

/-- Cells of `v'` that hold a reference hold the same one in `v`; variables are the same. -/
structure Shrink (v v' : View) : Prop where
  next : v'.next = v.next
  vars : ∀ i, v'.cell (.var i) = v.cell (.var i)
  cells : ∀ k p, v'.cell k = some (some p) → v.cell k = some (some p)

theorem Shrink.refl (v : View) : Shrink v v := ⟨rfl, fun _ => rfl, fun _ _ h => h⟩
theorem Shrink.trans {v v' v'' : View} (h1 : Shrink v v') (h2 : Shrink v' v'') : Shrink v v'' :=
  ⟨h2.next.trans h1.next, fun i => (h2.vars i).trans (h1.vars i), fun k p h => h1.cells k p (h2.cells k p h)⟩

theorem shrink_setCell {v : View} {l : Loc} (hl : ∀ i, Loc.var i ≠ l) : Shrink v (v.setCell l none) :=
  ⟨rfl, fun i => if_neg (hl i), fun k p h => by
    simp only [View.setCell] at h
    split at h
    · cases h
    · exact h⟩

theorem finish_shrink {h h' : Heap} {a : Nat} (he : h.finish a = .ok h') {o : Info} (ho : h.view.info a = some o)
    (hb : ∀ l, l ∈ o.backrefs → ∃ c, h.view.cell l = some c) (hvar : ∀ i, Loc.var i ∉ o.backrefs) :
    Shrink h.view h'.view := by
  obtain ⟨h1, e1, v1⟩ := addCount_ok (d := -1) ⟨o, ho⟩
  have ho1 : h1.view.info a = some { o with count := o.count + -1 } := by
    rw [v1]
    have := modInfo_of_some (a := a) (f := fun i => { i with count := i.count + -1 }) ho
    rw [if_pos rfl] at this
    exact this
  obtain ⟨ob, e2, hob, hobi⟩ := obj_ok ho1
  have hbk : ob.backrefs = o.backrefs := congrArg Info.backrefs hobi
  unfold Heap.finish at he
  simp only [e1, e2, Res.ok_bind] at he
  have s1 : Shrink h.view h1.view := by rw [v1]; exact ⟨rfl, fun _ => rfl, fun _ _ h => h⟩
  split at he
  · obtain ⟨h2, e3, c2, i2, n2, t2⟩ := freeBackrefs_ok (h := h1) (ls := ob.backrefs) (fun l hl => by
      rw [v1]; exact hb l (by rwa [hbk] at hl))
    rw [e3] at he
    simp only [Res.ok_bind] at he
    cases he
    refine s1.trans ⟨?_, fun i => ?_, fun k p hk => ?_⟩
    · rw [view_free]; exact n2
    · rw [view_free]
      show h2.view.cell (.var i) = _
      rw [c2, if_neg (by rw [hbk]; exact hvar i)]
    · rw [view_free] at hk
      have : h2.view.cell k = some (some p) → h1.view.cell k = some (some p) := by
        intro h
        rw [c2] at h
        split at h
        · cases h
        · exact h
      cases k with
      | var i => exact this hk
      | mortal i => exact this hk
      | slot b i =>
        simp only at hk
        split at hk
        · cases hk
        · exact this hk
  · cases he; exact s1

def Rel : Cmd → Prop
  | .assign _ _ => True
  | .release _ => True
  | .clearSlots _ _ _ => True
  | .dtor _ _ => True
  | _ => False

/-- The view `Shrink` is relative to. -/
def base (v : View) : Cmd → View
  | .assign l o => v.setCell l (o.map fun a => ⟨a, false⟩)
  | _ => v

theorem nodtor_shrink {D : Dtors} (hD : ∀ c, D.hasDtor c = false) : ∀ f dying ph c h h', Rel c →
    (∀ b, b ∈ dying → b ∈ ph) → Pre dying ph h c → go D true f dying c h = .ok h' → Shrink (base h.view c) h'.view := by
  intro f
  induction f with
  | zero => intro dying ph c h h' _ _ _ he; unfold go at he; cases he
  | succ f ih =>
    intro dying ph c h h' hrel hd hp he
    cases c with
    | assign l o =>
      obtain ⟨e, hv, hee, hm, ⟨c, hc⟩, ho, hdy, hmo⟩ := hp
      obtain ⟨h1, e1, hv1, hc1, hn1, ht1, hi1⟩ := store_ok hv hc ho hee
      have s1 : Shrink (h.view.setCell l (o.map fun a => ⟨a, false⟩)) h1.view :=
        ⟨hn1, fun i => by rw [hc1]; rfl, fun k p hk => by rw [hc1] at hk; exact hk⟩
      unfold go at he
      rw [e1] at he
      simp only [Res.ok_bind] at he
      cases c with
      | none => cases he; exact s1
      | some p =>
        have hm1 : Mort h1.view := by
          refine mort_congr (setCell_mort (l := l) (c := o.map fun a => ⟨a, false⟩) hm ⟨_, hc⟩ (.inr hmo)) ?_ ht1
          intro k; rw [hc1]; rfl
        exact s1.trans (ih dying ph (.release p.addr) h1 h' trivial hd ⟨hv1, hm1⟩ he)
    | release a =>
      obtain ⟨hv, hm⟩ := hp
      obtain ⟨o, ho⟩ := hv.phl a List.mem_cons_self
      obtain ⟨ob, e1, hob, hobi⟩ := obj_ok ho
      unfold go at he
      rw [e1] at he
      simp only [Res.ok_bind] at he
      split at he
      · obtain ⟨h1, e2, v2⟩ := addCount_ok (d := -1) ⟨o, ho⟩
        rw [e2] at he
        cases he
        rw [v2]; exact ⟨rfl, fun _ => rfl, fun _ _ h => h⟩
      · rcases go_inv D f dying (a :: ph) (.dtor a ob.cls) h (fun b hb => List.mem_cons_of_mem _ (hd b hb)) ⟨hv, hm, List.mem_cons_self⟩
          with h2 | h2 | ⟨h2, e2, hv2, hm2, hf2, ht2⟩
        · rw [h2] at he; cases he
        · rw [h2] at he; cases he
        · have s2 := ih dying (a :: ph) (.dtor a ob.cls) h h2 trivial (fun b hb => List.mem_cons_of_mem _ (hd b hb)) ⟨hv, hm, List.mem_cons_self⟩ e2
          rw [e2] at he
          simp only [Res.ok_bind] at he
          obtain ⟨o2, ho2⟩ := hv2.phl a List.mem_cons_self
          obtain ⟨ob2, e3, hob2, hobi2⟩ := obj_ok ho2
          rw [e3] at he
          simp only [Res.ok_bind] at he
          have hd' : ∀ b, b ∈ a :: dying → b ∈ a :: ph := fun b hb => by
            rcases List.mem_cons.mp hb with rfl | hb
            · exact List.mem_cons_self
            · exact List.mem_cons_of_mem _ (hd b hb)
          have hp3 : Pre (a :: dying) (a :: ph) h2 (.clearSlots a 0 ob2.slots.length) :=
            ⟨hv2, hm2, List.mem_cons_self, ⟨o2, ho2, by rw [← hobi2]; simp [Obj.info]⟩, by omega⟩
          rcases go_inv D f (a :: dying) (a :: ph) (.clearSlots a 0 ob2.slots.length) h2 hd' hp3
            with h3 | h3 | ⟨h3, e4, hv3, hm3, hf3, ht3, hs3⟩
          · rw [h3] at he; cases he
          · rw [h3] at he; cases he
          · have s3 := ih (a :: dying) (a :: ph) (.clearSlots a 0 ob2.slots.length) h2 h3 trivial hd' hp3 e4
            rw [e4] at he
            simp only [Res.ok_bind] at he
            obtain ⟨o3, ho3⟩ := hv3.phl a List.mem_cons_self
            exact s2.trans (s3.trans (finish_shrink he ho3 (fun l hl => ⟨_, ((hv3.back a o3 ho3).2 l).mp hl⟩)
              (fun i hi => by obtain ⟨_, _, hk⟩ := hv3.wk _ _ (((hv3.back a o3 ho3).2 _).mp hi); cases hk)))
    | clearSlots a i n =>
      obtain ⟨hv, hm, had, ⟨o, ho, hn⟩, hz⟩ := hp
      cases n with
      | zero => unfold go at he; cases he; exact Shrink.refl _
      | succ n =>
        unfold go at he
        have hcell := (hv.sl a i).mpr ⟨o, ho, by omega⟩
        have hp1 : Pre dying ph h (.assign (.slot a i) none) :=
          ⟨none, hv, by simp, hm, hcell, by simp, fun _ _ _ _ => rfl, by simp⟩
        rcases go_inv D f dying ph (.assign (.slot a i) none) h hd hp1 with h1 | h1 | ⟨h1, e1, hv1, hm1, hf1, ht1⟩
        · rw [h1] at he; cases he
        · rw [h1] at he; cases he
        · have s1 := ih dying ph (.assign (.slot a i) none) h h1 trivial hd hp1 e1
          rw [e1] at he
          simp only [Res.ok_bind] at he
          have hf1' : Frame dying h.view h1.view := frame_of_setCell hf1 (by simp) (fun _ _ _ _ => rfl)
          obtain ⟨o1, ho1⟩ := hv1.phl a (hd a had)
          have hno : o1.nslots = o.nslots := by
            obtain ⟨o', ho', hn', _⟩ := hf1'.old a o1 ho1 (by
              apply Classical.byContradiction
              intro hge
              rw [hv.fresh a (by omega)] at ho; cases ho)
            rw [ho] at ho'; cases ho'; exact hn'
          have hp2 : Pre dying ph h1 (.clearSlots a (i + 1) n) :=
            ⟨hv1, hm1, had, ⟨o1, ho1, by omega⟩, fun j hj => by
              by_cases hji : j = i
              · subst hji
                apply hf1.dy a had
                simp [View.setCell]
              · exact hf1'.dy a had j (hz j (by omega))⟩
          exact (shrink_setCell (by simp)).trans (s1.trans (ih dying ph (.clearSlots a (i + 1) n) h1 h' trivial hd hp2 he))
    | dtor a cls =>
      unfold go at he
      rw [hD, if_neg (by simp)] at he
      cases he; exact Shrink.refl _
    | push a => exact absurd hrel id
    | leave k i => exact absurd hrel id
    | weaken l => exact absurd hrel id
    | op o => exact absurd hrel id
    | ops os => exact absurd hrel id

theorem ok_of_bind {α β : Type} {x : Res α} {f : α → Res β} (h1 : x ≠ .refill) (h2 : ∀ a, f a ≠ .refill) :
    (x >>= f) ≠ .refill := by
  cases x with
  | ok a => exact h2 a
  | ub => intro h; cases h
  | refill => exact absurd rfl h1
  | limit => intro h; cases h

theorem obj_nr {h : Heap} {a : Nat} : h.obj a ≠ .refill := by
  unfold Heap.obj; split <;> simp
theorem read_nr {h : Heap} {l : Loc} : h.read l ≠ .refill := by
  unfold Heap.read; split <;> simp
theorem write_nr {h : Heap} {l : Loc} {c : Cell} : h.write l c ≠ .refill := by
  unfold Heap.write
  split
  · split <;> simp
  · split <;> simp
  · split
    · split <;> simp
    · simp
theorem addCount_nr {h : Heap} {a : Nat} {d : Int} : h.addCount a d ≠ .refill :=
  ok_of_bind obj_nr (fun _ => by simp)
theorem setBackrefs_nr {h : Heap} {a : Nat} {f} : h.setBackrefs a f ≠ .refill :=
  ok_of_bind obj_nr (fun _ => by simp)
theorem unweaken_nr {h : Heap} {l : Loc} : h.unweaken l ≠ .refill := by
  refine ok_of_bind read_nr (fun c => ?_)
  cases c with
  | none => simp
  | some p =>
    simp only
    split
    · exact ok_of_bind write_nr (fun _ => ok_of_bind addCount_nr (fun _ => setBackrefs_nr))
    · simp
theorem incOpt_nr {h : Heap} {o : Option Nat} : h.incOpt o ≠ .refill := by
  cases o with
  | none => simp [Heap.incOpt]
  | some a => exact addCount_nr
theorem store_nr {h : Heap} {l : Loc} {o : Option Nat} : h.store l o ≠ .refill :=
  ok_of_bind read_nr (fun _ => ok_of_bind unweaken_nr (fun _ => ok_of_bind incOpt_nr (fun _ => ok_of_bind write_nr (fun _ => by simp))))
theorem freeBackrefs_nr {ls : List Loc} : ∀ {h : Heap}, h.freeBackrefs ls ≠ .refill := by
  induction ls with
  | nil => intro h; simp [Heap.freeBackrefs]
  | cons l ls ih => intro h; exact ok_of_bind write_nr (fun _ => ih)
theorem finish_nr {h : Heap} {a : Nat} : h.finish a ≠ .refill := by
  refine ok_of_bind addCount_nr (fun h1 => ok_of_bind obj_nr (fun o => ?_))
  split
  · exact ok_of_bind freeBackrefs_nr (fun _ => by simp)
  · simp
theorem grow_nr {h : Heap} : h.growMortals ≠ .refill := by
  unfold Heap.growMortals
  split
  · split <;> simp
  · simp

/-- Without destructors nothing runs while an object is being destroyed. -/
theorem nodtor_norefill {D : Dtors} (hD : ∀ c, D.hasDtor c = false) : ∀ f dying c h,
    (Rel c ∨ dying = []) → go D true f dying c h ≠ .refill := by
  intro f
  induction f with
  | zero => intro dying c h _; unfold go; simp
  | succ f ih =>
    intro dying c h hc
    cases c with
    | assign l o =>
      unfold go
      refine ok_of_bind store_nr (fun r => ?_)
      obtain ⟨released, h1⟩ := r
      cases released with
      | none => simp
      | some a => exact ih _ _ _ (.inl trivial)
    | release a =>
      unfold go
      refine ok_of_bind obj_nr (fun o => ?_)
      split
      · exact addCount_nr
      · exact ok_of_bind (ih _ _ _ (.inl trivial)) (fun _ => ok_of_bind obj_nr (fun _ =>
          ok_of_bind (ih _ _ _ (.inl trivial)) (fun _ => finish_nr)))
    | clearSlots a i n =>
      cases n with
      | zero => unfold go; simp
      | succ n =>
        unfold go
        exact ok_of_bind (ih _ _ _ (.inl trivial)) (fun _ => ih _ _ _ (.inl trivial))
    | dtor a cls =>
      unfold go
      rw [hD, if_neg (by simp)]; simp
    | push a =>
      have hd : dying = [] := hc.resolve_left id
      unfold go
      exact ok_of_bind grow_nr (fun _ => ok_of_bind (ih _ _ _ (.inl trivial)) (fun _ => by simp))
    | leave k i =>
      have hd : dying = [] := hc.resolve_left id
      unfold go
      split
      · exact ok_of_bind (ih _ _ _ (.inl trivial)) (fun _ => ih _ _ _ (.inr hd))
      · simp
    | weaken l =>
      unfold go
      refine ok_of_bind read_nr (fun c => ?_)
      cases c with
      | none => simp
      | some p =>
        simp only
        split
        · simp
        · refine ok_of_bind obj_nr (fun o => ?_)
          split
          · exact ok_of_bind write_nr (fun _ => ih _ _ _ (.inl trivial))
          · exact ok_of_bind write_nr (fun _ => ok_of_bind addCount_nr (fun _ => setBackrefs_nr))
    | op o =>
      have hd : dying = [] := hc.resolve_left id
      cases o with
      | new x n cls =>
        unfold go
        split
        · exact ih _ _ _ (.inl trivial)
        · simp
      | move x y =>
        unfold go
        split
        · exact ih _ _ _ (.inl trivial)
        · simp
      | clear x =>
        unfold go
        split
        · exact ih _ _ _ (.inl trivial)
        · simp
      | getField x y i =>
        unfold go
        split
        · simp
        · split
          · exact ih _ _ _ (.inl trivial)
          · simp
      | setField y i x =>
        unfold go
        split
        · simp
        · rw [if_neg (by rw [hd]; simp)]
          exact ih _ _ _ (.inl trivial)
      | clearField y i =>
        unfold go
        split
        · simp
        · exact ih _ _ _ (.inl trivial)
      | weaken y i =>
        unfold go
        split
        · simp
        · exact ih _ _ _ (.inr hd)
      | unweaken y i =>
        unfold go
        split
        · simp
        · exact unweaken_nr
      | pushMortal y =>
        unfold go
        split
        · simp
        · exact ih _ _ _ (.inr hd)
      | scope body =>
        unfold go
        exact ok_of_bind (ih _ _ _ (.inr hd)) (fun _ => ih _ _ _ (.inr hd))
    | ops os =>
      have hd : dying = [] := hc.resolve_left id
      cases os with
      | nil => unfold go; simp
      | cons o rest =>
        unfold go
        exact ok_of_bind (ih _ _ _ (.inr hd)) (fun _ => ih _ _ _ (.inr hd))

/-! ### termination without destructors -/

theorem nodup_bound {n : Nat} : ∀ {l : List Nat}, l.Nodup → (∀ a, a ∈ l → a < n) → l.length ≤ n := by
  induction n with
  | zero =>
    intro l _ h
    cases l with
    | nil => simp
    | cons a l => exact absurd (h a List.mem_cons_self) (Nat.not_lt_zero _)
  | succ n ih =>
    intro l hn h
    have h1 := ih (hn.erase n) (fun a ha => by
      rw [hn.mem_erase_iff] at ha
      have := h a ha.2
      have := ha.1
      omega)
    have h2 := List.length_erase (a := n) (l := l)
    split at h2 <;> omega

theorem term_release {D : Dtors} (hD : ∀ c, D.hasDtor c = false) : ∀ m dying ph a h, ph.Nodup →
    h.next ≤ ph.length + m → (∀ b, b ∈ dying → b ∈ ph) → Pre dying ph h (.release a) →
    ∃ f, go D true f dying (.release a) h ≠ .limit := by
  intro m
  induction m with
  | zero =>
    intro dying ph a h hnd hm hd hp
    obtain ⟨hv, hmo⟩ := hp
    obtain ⟨o, ho⟩ := hv.phl a List.mem_cons_self
    obtain ⟨ob, e1, hob, hobi⟩ := obj_ok ho
    have hcnt : ob.count = o.count := by rw [← hobi]; rfl
    refine ⟨1, ?_⟩
    unfold go
    rw [e1]
    simp only [Res.ok_bind, hcnt]
    have hgt : o.count > 1 := by
      apply Classical.byContradiction
      intro hc
      have hph : a ∉ ph := by
        obtain ⟨L, _, hLc⟩ := hv.count a o ho
        rw [count_cons, if_pos rfl] at hLc
        intro hin
        have := List.count_pos_iff.mpr hin
        omega
      have := nodup_bound (List.nodup_cons.mpr ⟨hph, hnd⟩) (n := h.next) (fun b hb => by
        obtain ⟨o', ho'⟩ := hv.phl b hb
        apply Classical.byContradiction
        intro hge
        rw [hv.fresh b (by show h.next ≤ b; omega)] at ho'; cases ho')
      simp only [List.length_cons] at this
      omega
    rw [if_pos hgt]
    obtain ⟨h1, e2, v2⟩ := addCount_ok (d := -1) ⟨o, ho⟩
    rw [e2]; simp
  | succ m ih =>
    intro dying ph a h hnd hm hd hp
    obtain ⟨hv, hmo⟩ := hp
    obtain ⟨o, ho⟩ := hv.phl a List.mem_cons_self
    obtain ⟨ob, e1, hob, hobi⟩ := obj_ok ho
    have hcnt : ob.count = o.count := by rw [← hobi]; rfl
    by_cases hc : o.count > 1
    · refine ⟨1, ?_⟩
      unfold go
      rw [e1]
      simp only [Res.ok_bind, hcnt]
      rw [if_pos hc]
      obtain ⟨h1, e2, v2⟩ := addCount_ok (d := -1) ⟨o, ho⟩
      rw [e2]; simp
    · have hph : a ∉ ph := by
        obtain ⟨L, _, hLc⟩ := hv.count a o ho
        rw [count_cons, if_pos rfl] at hLc
        intro hin
        have := List.count_pos_iff.mpr hin
        omega
      have hd' : ∀ b, b ∈ a :: dying → b ∈ a :: ph := fun b hb => by
        rcases List.mem_cons.mp hb with rfl | hb
        · exact List.mem_cons_self
        · exact List.mem_cons_of_mem _ (hd b hb)
      -- the slots
      have hslots : ∀ n i (h1 : Heap), h1.next = h.next → Pre (a :: dying) (a :: ph) h1 (.clearSlots a i n) →
          ∃ f, go D true f (a :: dying) (.clearSlots a i n) h1 ≠ .limit := by
        intro n
        induction n with
        | zero => intro i h1 _ _; exact ⟨1, by unfold go; simp⟩
        | succ n ihn =>
          intro i h1 hnx hp1
          obtain ⟨hv1, hm1, had, ⟨o1, ho1, hn1⟩, hz1⟩ := hp1
          have hcell := (hv1.sl a i).mpr ⟨o1, ho1, by omega⟩
          have hpa : Pre (a :: dying) (a :: ph) h1 (.assign (.slot a i) none) :=
            ⟨none, hv1, by simp, hm1, hcell, by simp, fun _ _ _ _ => rfl, by simp⟩
          have hta : ∃ f, go D true f (a :: dying) (.assign (.slot a i) none) h1 ≠ .limit := by
            obtain ⟨c, hcc⟩ := hcell
            obtain ⟨h2, e2, hv2, hc2, hn2, ht2, hi2⟩ := store_ok (object := none) hv1 hcc (by simp) (by simp)
            cases c with
            | none =>
              refine ⟨1, ?_⟩
              unfold go
              rw [e2]
              simp
            | some p =>
              have hm2 : Mort h2.view := by
                refine mort_congr (setCell_mort (l := .slot a i) (c := none) hm1 ⟨_, hcc⟩ (.inl rfl)) ?_ ht2
                intro k; rw [hc2]; rfl
              obtain ⟨f, hf⟩ := ih (a :: dying) (a :: ph) p.addr h2 (List.nodup_cons.mpr ⟨hph, hnd⟩)
                (by have : h2.next = h1.next := hn2
                    simp only [List.length_cons]; omega) hd' ⟨hv2, hm2⟩
              refine ⟨f + 1, ?_⟩
              unfold go
              rw [e2]
              exact hf
          obtain ⟨f1, hf1⟩ := hta
          rcases go_inv D f1 (a :: dying) (a :: ph) (.assign (.slot a i) none) h1 hd' hpa with q | q | ⟨h2, e2, hv2, hm2, hf2, ht2⟩
          · exact absurd q (nodtor_norefill hD _ _ _ _ (.inl trivial))
          · exact absurd q hf1
          · have s2 := nodtor_shrink hD f1 _ _ (.assign (.slot a i) none) _ _ trivial hd' hpa e2
            have hf2' : Frame (a :: dying) h1.view h2.view := frame_of_setCell hf2 (by simp) (fun _ _ _ _ => rfl)
            obtain ⟨o2, ho2⟩ := hv2.phl a (hd' a had)
            have hno : o2.nslots = o1.nslots := by
              obtain ⟨o', ho', hn', _⟩ := hf2'.old a o2 ho2 (by
                apply Classical.byContradiction
                intro hge
                rw [hv1.fresh a (by omega)] at ho1; cases ho1)
              rw [ho1] at ho'; cases ho'; exact hn'
            have hp2 : Pre (a :: dying) (a :: ph) h2 (.clearSlots a (i + 1) n) :=
              ⟨hv2, hm2, had, ⟨o2, ho2, by omega⟩, fun j hj => by
                by_cases hji : j = i
                · subst hji
                  apply hf2.dy a had
                  simp [View.setCell]
                · exact hf2'.dy a had j (hz1 j (by omega))⟩
            obtain ⟨f2, hf2⟩ := ihn (i + 1) h2 (s2.next.trans hnx) hp2
            refine ⟨max f1 f2 + 1, ?_⟩
            unfold go
            rw [go_mono D true (Nat.le_max_left f1 f2) hf1, e2]
            simp only [Res.ok_bind]
            rw [go_mono D true (Nat.le_max_right f1 f2) hf2]
            exact hf2
      have hpc : Pre (a :: dying) (a :: ph) h (.clearSlots a 0 ob.slots.length) :=
        ⟨hv, hmo, List.mem_cons_self, ⟨o, ho, by rw [← hobi]; simp [Obj.info]⟩, by omega⟩
      obtain ⟨f, hf⟩ := hslots ob.slots.length 0 h rfl hpc
      refine ⟨f + 2, ?_⟩
      unfold go
      rw [e1]
      simp only [Res.ok_bind, hcnt]
      rw [if_neg hc]
      have hdt : go D true (f + 1) dying (.dtor a ob.cls) h = .ok h := by
        unfold go; rw [hD, if_neg (by simp)]
      rw [hdt]
      simp only [Res.ok_bind, e1]
      rw [go_mono D true (Nat.le_succ f) hf]
      rcases go_inv D f (a :: dying) (a :: ph) (.clearSlots a 0 ob.slots.length) h hd' hpc with q | q | ⟨h3, e3, hv3, hm3, hf3, ht3, hs3⟩
      · rw [q]; simp
      · exact absurd q hf
      · rw [e3]
        simp only [Res.ok_bind]
        obtain ⟨h4, e5, _⟩ := finish_ok (dying := dying) hv3 hm3 hph hd (by
          intro i c hic
          obtain ⟨o3, ho3, hlt⟩ := (hv3.sl a i).mp ⟨c, hic⟩
          obtain ⟨o2', ho2', hn, _⟩ := hf3.old a o3 ho3 (by
            apply Classical.byContradiction
            intro hge
            rw [hv.fresh a (by omega)] at ho; cases ho)
          rw [ho] at ho2'
          cases ho2'
          have hl : o.nslots = ob.slots.length := by rw [← hobi]; rfl
          have := hs3 i (by omega)
          rw [hic] at this
          cases this; rfl)
        rw [e5]; simp

theorem term_assign {D : Dtors} (hD : ∀ c, D.hasDtor c = false) {l : Loc} {o : Option Nat} {h : Heap}
    (hp : Pre [] [] h (.assign l o)) : ∃ f, go D true f [] (.assign l o) h ≠ .limit := by
  obtain ⟨e, hv, hee, hm, ⟨c, hc⟩, ho, hdy, hmo⟩ := hp
  obtain ⟨h1, e1, hv1, hc1, hn1, ht1, hi1⟩ := store_ok hv hc ho hee
  cases c with
  | none =>
    refine ⟨1, ?_⟩
    unfold go
    rw [e1]; simp
  | some p =>
    have hm1 : Mort h1.view := by
      refine mort_congr (setCell_mort (l := l) (c := o.map fun a => ⟨a, false⟩) hm ⟨_, hc⟩ (.inr hmo)) ?_ ht1
      intro k; rw [hc1]; rfl
    obtain ⟨f, hf⟩ := term_release hD h1.next [] [] p.addr h1 List.nodup_nil (by simp) (by simp) ⟨hv1, hm1⟩
    refine ⟨f + 1, ?_⟩
    unfold go
    rw [e1]
    exact hf

end SPVM.Heap
