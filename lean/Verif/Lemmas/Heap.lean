import Verif.Model.Heap
set_option linter.unusedSimpArgs false
set_option linter.unusedVariables false
/-! Lemmas for the heap model: abstract view, invariant, effect of the primitives. -/
namespace SPVM.Heap

/-- What the invariant needs to know about an object apart from its slots. -/
structure Info where
  count : Int
  backrefs : List Loc
  cls : Nat
  nslots : Nat

def Obj.info (o : Obj) : Info := ⟨o.count, o.backrefs, o.cls, o.slots.length⟩

structure View where
  cell : Loc → Option Cell
  info : Nat → Option Info
  next : Nat
  top : Nat

theorem View.ext' {v w : View} (h1 : ∀ l, v.cell l = w.cell l) (h2 : ∀ a, v.info a = w.info a) (h3 : v.next = w.next)
    (h4 : v.top = w.top) : v = w := by
  cases v; cases w
  simp only at *
  simp [funext h1, funext h2, h3, h4]

def Heap.view (h : Heap) : View := ⟨h.cell, fun a => (h.objs a).map Obj.info, h.next, h.top⟩

def View.setCell (v : View) (l : Loc) (c : Cell) : View :=
  { v with cell := fun l' => if l' = l then some c else v.cell l' }

def View.modInfo (v : View) (a : Nat) (f : Info → Info) : View :=
  { v with info := fun b => if b = a then (v.info a).map f else v.info b }

def View.addCount (v : View) (a : Nat) (d : Int) : View := v.modInfo a fun i => { i with count := i.count + d }
def View.setBack (v : View) (a : Nat) (f : List Loc → List Loc) : View :=
  v.modInfo a fun i => { i with backrefs := f i.backrefs }

/-- `L` lists, without repetition, the places that hold a strong reference to `a`. -/
def View.Strong (v : View) (a : Nat) (L : List Loc) : Prop :=
  L.Nodup ∧ ∀ l, l ∈ L ↔ v.cell l = some (some ⟨a, false⟩)

/-- The invariant.  `ph` lists the objects that hold an extra count for a running destruction, `e` is an object whose
count may be 0 (just allocated). -/
structure Inv (v : View) (ph : List Nat) (e : Option Nat) : Prop where
  fresh : ∀ a, v.next ≤ a → v.info a = none
  count : ∀ a o, v.info a = some o → ∃ L, v.Strong a L ∧ o.count = L.length + ph.count a
  live : ∀ l p, v.cell l = some (some p) → ∃ o, v.info p.addr = some o
  back : ∀ a o, v.info a = some o → o.backrefs.Nodup ∧ ∀ l, l ∈ o.backrefs ↔ v.cell l = some (some ⟨a, true⟩)
  pos : ∀ a o, v.info a = some o → e ≠ some a → 0 < o.count
  phl : ∀ a, a ∈ ph → ∃ o, v.info a = some o
  wk : ∀ l a, v.cell l = some (some ⟨a, true⟩) → ∃ b i, l = .slot b i
  sl : ∀ a i, (∃ c, v.cell (.slot a i) = some c) ↔ ∃ o, v.info a = some o ∧ i < o.nslots

/-- Above the top the mortal stack is empty, below it it is allocated. -/
def Mort (v : View) : Prop :=
  (∀ i, i < v.top → ∃ c, v.cell (.mortal i) = some c) ∧
  (∀ i c, v.top ≤ i → v.cell (.mortal i) = some c → c = none) ∧ (∃ c, v.cell (.mortal 0) = some c)

/-! ### effect of the primitives on the view -/

theorem view_setObj_same {h : Heap} {a : Nat} {o o' : Obj} (ho : h.objs a = some o) (hs : o'.slots = o.slots) :
    (h.setObj a (some o')).view = h.view.modInfo a (fun _ => o'.info) := by
  apply View.ext'
  · intro l
    cases l with
    | var i => rfl
    | mortal i => rfl
    | slot b i =>
      simp only [Heap.view, Heap.cell, Heap.setObj, View.modInfo]
      by_cases hb : b = a
      · subst hb; simp [ho, hs]
      · simp [hb]
  · intro b
    simp only [Heap.view, Heap.setObj, View.modInfo]
    by_cases hb : b = a
    · subst hb; simp [ho]
    · simp [hb]
  · rfl
  · rfl

theorem info_view {h : Heap} {a : Nat} : h.view.info a = (h.objs a).map Obj.info := rfl

theorem obj_ok {h : Heap} {a : Nat} {o : Info} (ho : h.view.info a = some o) :
    ∃ ob, h.obj a = .ok ob ∧ h.objs a = some ob ∧ ob.info = o := by
  rw [info_view] at ho
  cases hh : h.objs a with
  | none => rw [hh] at ho; cases ho
  | some ob =>
    rw [hh] at ho
    exact ⟨ob, by simp [Heap.obj, hh], rfl, by simpa using ho⟩

theorem modInfo_const {v : View} {a : Nat} {o : Info} {f : Info → Info} (ho : v.info a = some o) :
    v.modInfo a (fun _ => f o) = v.modInfo a f := by
  simp only [View.modInfo, ho, Option.map_some]

theorem addCount_ok {h : Heap} {a : Nat} {d : Int} (ho : ∃ o, h.view.info a = some o) :
    ∃ h', h.addCount a d = .ok h' ∧ h'.view = h.view.addCount a d := by
  obtain ⟨o, ho⟩ := ho
  obtain ⟨ob, e1, e2, e3⟩ := obj_ok ho
  refine ⟨_, by unfold Heap.addCount; rw [e1]; rfl, ?_⟩
  · rw [view_setObj_same (o' := { ob with count := ob.count + d }) e2 rfl]
    subst e3
    exact modInfo_const (f := fun i => { i with count := i.count + d }) ho

theorem setBackrefs_ok {h : Heap} {a : Nat} {f : List Loc → List Loc} (ho : ∃ o, h.view.info a = some o) :
    ∃ h', h.setBackrefs a f = .ok h' ∧ h'.view = h.view.setBack a f := by
  obtain ⟨o, ho⟩ := ho
  obtain ⟨ob, e1, e2, e3⟩ := obj_ok ho
  refine ⟨_, by unfold Heap.setBackrefs; rw [e1]; rfl, ?_⟩
  · rw [view_setObj_same (o' := { ob with backrefs := f ob.backrefs }) e2 rfl]
    subst e3
    exact modInfo_const (f := fun i => { i with backrefs := f i.backrefs }) ho

theorem read_ok {h : Heap} {l : Loc} {c : Cell} (hc : h.view.cell l = some c) : h.read l = .ok c := by
  have : h.cell l = some c := hc
  simp [Heap.read, this]

theorem write_ok {h : Heap} {l : Loc} {c : Cell} (hc : ∃ c0, h.view.cell l = some c0) :
    ∃ h', h.write l c = .ok h' ∧ h'.view = h.view.setCell l c := by
  obtain ⟨c0, hc⟩ := hc
  have hc' : h.cell l = some c0 := hc
  cases l with
  | var i =>
    have hi : i < h.vars.length := by
      simp only [Heap.cell] at hc'
      exact (List.getElem?_eq_some_iff.mp hc').1
    refine ⟨_, by simp only [Heap.write, if_pos hi]; rfl, ?_⟩
    apply View.ext'
    · intro l
      cases l with
      | var j =>
        simp only [Heap.view, Heap.cell, View.setCell, List.getElem?_set, Loc.var.injEq]
        by_cases hj : i = j
        · subst hj; simp [hi]
        · rw [if_neg hj, if_neg (Ne.symm hj)]
      | mortal j => simp [Heap.view, Heap.cell, View.setCell]
      | slot b j => simp [Heap.view, Heap.cell, View.setCell]
    · intro a; rfl
    · rfl
    · rfl
  | mortal i =>
    have hi : i < h.mortals.length := by
      simp only [Heap.cell] at hc'
      exact (List.getElem?_eq_some_iff.mp hc').1
    refine ⟨_, by simp only [Heap.write, if_pos hi]; rfl, ?_⟩
    apply View.ext'
    · intro l
      cases l with
      | mortal j =>
        simp only [Heap.view, Heap.cell, View.setCell, List.getElem?_set, Loc.mortal.injEq]
        by_cases hj : i = j
        · subst hj; simp [hi]
        · rw [if_neg hj, if_neg (Ne.symm hj)]
      | var j => simp [Heap.view, Heap.cell, View.setCell]
      | slot b j => simp [Heap.view, Heap.cell, View.setCell]
    · intro a; rfl
    · rfl
    · rfl
  | slot a i =>
    simp only [Heap.cell] at hc'
    cases ho : h.objs a with
    | none => rw [ho] at hc'; cases hc'
    | some o =>
      rw [ho] at hc'
      have hi : i < o.slots.length := (List.getElem?_eq_some_iff.mp hc').1
      refine ⟨_, by simp only [Heap.write, ho, if_pos hi]; rfl, ?_⟩
      apply View.ext'
      · intro l
        cases l with
        | var j => simp [Heap.view, Heap.cell, View.setCell, Heap.setObj]
        | mortal j => simp [Heap.view, Heap.cell, View.setCell, Heap.setObj]
        | slot b j =>
          simp only [Heap.view, Heap.cell, View.setCell, Heap.setObj, Loc.slot.injEq]
          by_cases hb : b = a
          · subst hb
            simp only [if_true, true_and, List.getElem?_set, ho]
            by_cases hj : i = j
            · subst hj; simp [hi]
            · rw [if_neg hj, if_neg (Ne.symm hj)]
          · simp [hb]
      · intro b
        simp only [Heap.view, Heap.setObj, View.setCell]
        by_cases hb : b = a
        · subst hb; simp [ho, Obj.info]
        · simp [hb]
      · rfl
      · rfl

/-! ### invariant steps -/

theorem count_cons (a b : Nat) (ph : List Nat) : ((b :: ph).count a : Int) = ph.count a + if b = a then 1 else 0 := by
  rw [List.count_cons]
  by_cases h : b = a
  · simp [h]
  · simp [h]

theorem inv_clear {v : View} {ph : List Nat} {e : Option Nat} {l : Loc} {b : Nat} (hv : Inv v ph e)
    (hl : v.cell l = some (some ⟨b, false⟩)) : Inv (v.setCell l none) (b :: ph) e := by
  constructor
  · exact hv.fresh
  · intro a o ho
    obtain ⟨L, ⟨hn, hm⟩, hc⟩ := hv.count a o ho
    by_cases hb : b = a
    · subst hb
      have hmem : l ∈ L := (hm l).mpr hl
      refine ⟨L.erase l, ⟨hn.erase l, fun k => ?_⟩, ?_⟩
      · rw [hn.mem_erase_iff, hm]
        simp only [View.setCell]
        by_cases hk : k = l
        · simp [hk]
        · simp [hk]
      · rw [count_cons, if_pos rfl, List.length_erase_of_mem hmem, hc]
        have := List.length_pos_of_mem hmem
        omega
    · refine ⟨L, ⟨hn, fun k => ?_⟩, ?_⟩
      · rw [hm]
        simp only [View.setCell]
        by_cases hk : k = l
        · subst hk; rw [hl]; simp [hb]
        · simp [hk]
      · rw [count_cons, if_neg hb, hc]; omega
  · intro k p hp
    simp only [View.setCell] at hp
    split at hp
    · cases hp
    · exact hv.live k p hp
  · intro a o ho
    obtain ⟨h1, h2⟩ := hv.back a o ho
    refine ⟨h1, fun k => ?_⟩
    rw [h2]
    simp only [View.setCell]
    by_cases hk : k = l
    · subst hk; rw [hl]; simp
    · simp [hk]
  · exact hv.pos
  · intro a ha
    rcases List.mem_cons.mp ha with rfl | ha
    · exact hv.live l ⟨a, false⟩ hl
    · exact hv.phl a ha
  · intro k a hk
    simp only [View.setCell] at hk
    split at hk
    · cases hk
    · exact hv.wk k a hk
  · intro a i
    have h1 := hv.sl a i
    simp only [View.setCell]
    by_cases hk : Loc.slot a i = l
    · subst hk; simpa [hl] using h1
    · simpa [hk] using h1

theorem inv_strong {v : View} {ph : List Nat} {e e' : Option Nat} {l : Loc} {a : Nat} (hv : Inv v ph e)
    (hl : v.cell l = some none) (ha : ∃ o, v.info a = some o) (he : ∀ b, b ≠ a → e' ≠ some b → e ≠ some b) :
    Inv ((v.addCount a 1).setCell l (some ⟨a, false⟩)) ph e' := by
  obtain ⟨oa, hoa⟩ := ha
  have hinfo : ∀ b o, ((v.addCount a 1).setCell l (some ⟨a, false⟩)).info b = some o →
      ∃ o0, v.info b = some o0 ∧ o.count = o0.count + (if b = a then 1 else 0) ∧ o.backrefs = o0.backrefs ∧ o.nslots = o0.nslots := by
    intro b o ho
    simp only [View.addCount, View.setCell, View.modInfo] at ho
    by_cases hb : b = a
    · subst hb
      rw [if_pos rfl, hoa] at ho
      refine ⟨oa, hoa, ?_⟩
      simp only [Option.map_some, Option.some.injEq] at ho
      subst ho
      simp
    · rw [if_neg hb] at ho
      exact ⟨o, ho, by simp [hb]⟩
  have hinfo' : ∀ b o0, v.info b = some o0 →
      ∃ o, ((v.addCount a 1).setCell l (some ⟨a, false⟩)).info b = some o ∧ o.nslots = o0.nslots := by
    intro b o0 ho
    simp only [View.addCount, View.setCell, View.modInfo]
    by_cases hb : b = a
    · subst hb; rw [if_pos rfl, ho]; exact ⟨_, rfl, rfl⟩
    · rw [if_neg hb]; exact ⟨o0, ho, rfl⟩
  have hcell : ∀ k, ((v.addCount a 1).setCell l (some ⟨a, false⟩)).cell k = if k = l then some (some ⟨a, false⟩) else v.cell k :=
    fun k => rfl
  constructor
  · intro b hb
    have := hv.fresh b hb
    simp only [View.addCount, View.setCell, View.modInfo]
    by_cases hba : b = a
    · subst hba; rw [this] at hoa; cases hoa
    · rw [if_neg hba]; exact this
  · intro b o ho
    obtain ⟨o0, h0, hc0, _⟩ := hinfo b o ho
    obtain ⟨L, ⟨hn, hm⟩, hc⟩ := hv.count b o0 h0
    by_cases hb : b = a
    · subst hb
      refine ⟨l :: L, ⟨List.nodup_cons.mpr ⟨fun hin => ?_, hn⟩, fun k => ?_⟩, ?_⟩
      · rw [hm, hl] at hin; cases hin
      · rw [hcell, List.mem_cons, hm]
        by_cases hk : k = l
        · simp [hk]
        · simp [hk]
      · rw [hc0, hc, if_pos rfl, List.length_cons]; push_cast; omega
    · refine ⟨L, ⟨hn, fun k => ?_⟩, ?_⟩
      · rw [hm, hcell]
        by_cases hk : k = l
        · subst hk; rw [hl]; simp [Ne.symm hb]
        · simp [hk]
      · rw [hc0, hc, if_neg hb]; omega
  · intro k p hp
    rw [hcell] at hp
    split at hp
    · cases hp
      obtain ⟨o, h1, _⟩ := hinfo' a oa hoa
      exact ⟨o, h1⟩
    · obtain ⟨o, h1⟩ := hv.live k p hp
      obtain ⟨o', h2, _⟩ := hinfo' _ o h1
      exact ⟨o', h2⟩
  · intro b o ho
    obtain ⟨o0, h0, _, hb0, _⟩ := hinfo b o ho
    obtain ⟨h1, h2⟩ := hv.back b o0 h0
    rw [hb0]
    refine ⟨h1, fun k => ?_⟩
    rw [h2, hcell]
    by_cases hk : k = l
    · subst hk; rw [hl]; simp
    · simp [hk]
  · intro b o ho hne
    obtain ⟨o0, h0, hc0, _⟩ := hinfo b o ho
    by_cases hb : b = a
    · subst hb
      obtain ⟨L, _, hc⟩ := hv.count b o0 h0
      rw [hc0, if_pos rfl]; omega
    · have := hv.pos b o0 h0 (he b hb hne)
      rw [hc0, if_neg hb]; omega
  · intro b hb
    obtain ⟨o, h1⟩ := hv.phl b hb
    obtain ⟨o', h2, _⟩ := hinfo' _ o h1
    exact ⟨o', h2⟩
  · intro k b hk
    rw [hcell] at hk
    split at hk
    · cases hk
    · exact hv.wk k b hk
  · intro b i
    have h1 := hv.sl b i
    rw [hcell]
    constructor
    · intro hc
      have : ∃ c, v.cell (.slot b i) = some c := by
        by_cases hk : Loc.slot b i = l
        · rw [hk]; exact ⟨_, hl⟩
        · rwa [if_neg hk] at hc
      obtain ⟨o, h2, h3⟩ := h1.mp this
      obtain ⟨o', h4, h5⟩ := hinfo' _ o h2
      exact ⟨o', h4, by omega⟩
    · rintro ⟨o, h2, h3⟩
      obtain ⟨o0, h4, _, _, h5⟩ := hinfo _ o h2
      by_cases hk : Loc.slot b i = l
      · rw [if_pos hk]; exact ⟨_, rfl⟩
      · rw [if_neg hk]; exact h1.mpr ⟨o0, h4, by omega⟩

theorem modInfo_some {v : View} {a b : Nat} {f : Info → Info} {o : Info} (ho : (v.modInfo a f).info b = some o) :
    ∃ o0, v.info b = some o0 ∧ o = if b = a then f o0 else o0 := by
  simp only [View.modInfo] at ho
  by_cases hb : b = a
  · subst hb
    rw [if_pos rfl] at ho
    cases hi : v.info b with
    | none => rw [hi] at ho; cases ho
    | some o0 => rw [hi] at ho; cases ho; exact ⟨o0, rfl, by rw [if_pos rfl]⟩
  · rw [if_neg hb] at ho
    exact ⟨o, ho, by rw [if_neg hb]⟩

theorem modInfo_of_some {v : View} {a b : Nat} {f : Info → Info} {o : Info} (ho : v.info b = some o) :
    (v.modInfo a f).info b = some (if b = a then f o else o) := by
  simp only [View.modInfo]
  by_cases hb : b = a
  · subst hb; rw [if_pos rfl, if_pos rfl, ho]; rfl
  · rw [if_neg hb, if_neg hb, ho]

theorem modInfo_none {v : View} {a b : Nat} {f : Info → Info} (ho : v.info b = none) :
    (v.modInfo a f).info b = none := by
  simp only [View.modInfo]
  by_cases hb : b = a
  · subst hb; rw [if_pos rfl, ho]; rfl
  · rw [if_neg hb, ho]

theorem inv_dec {v : View} {ph : List Nat} {e : Option Nat} {a : Nat} {o : Info} (hv : Inv v (a :: ph) e)
    (ho : v.info a = some o) (hc : 1 < o.count ∨ e = some a) : Inv (v.addCount a (-1)) ph e := by
  have hsome := @modInfo_of_some v a
  constructor
  · intro b hb; exact modInfo_none (hv.fresh b hb)
  · intro b ob hob
    obtain ⟨o0, h0, rfl⟩ := modInfo_some hob
    obtain ⟨L, hL, hc⟩ := hv.count b o0 h0
    refine ⟨L, hL, ?_⟩
    rw [count_cons] at hc
    by_cases hb : b = a
    · subst hb
      rw [if_pos rfl] at hc ⊢
      simp only; omega
    · rw [if_neg (Ne.symm hb)] at hc
      rw [if_neg hb]; omega
  · intro k p hp
    obtain ⟨o', h'⟩ := hv.live k p hp
    exact ⟨_, hsome h'⟩
  · intro b ob hob
    obtain ⟨o0, h0, rfl⟩ := modInfo_some hob
    have := hv.back b o0 h0
    by_cases hb : b = a
    · rw [if_pos hb]; exact this
    · rw [if_neg hb]; exact this
  · intro b ob hob hne
    obtain ⟨o0, h0, rfl⟩ := modInfo_some hob
    have := hv.pos b o0 h0 hne
    by_cases hb : b = a
    · subst hb
      rw [ho] at h0; cases h0
      rw [if_pos rfl]
      rcases hc with hc | hc
      · simp only; omega
      · exact absurd hc hne
    · rw [if_neg hb]; exact this
  · intro b hb
    obtain ⟨o', h'⟩ := hv.phl b (List.mem_cons_of_mem _ hb)
    exact ⟨_, hsome h'⟩
  · exact hv.wk
  · intro b i
    rw [show (v.addCount a (-1)).cell = v.cell from rfl, hv.sl b i]
    constructor
    · rintro ⟨o', h', hi⟩
      refine ⟨_, hsome h', ?_⟩
      split <;> exact hi
    · rintro ⟨o', h', hi⟩
      obtain ⟨o0, h0, rfl⟩ := modInfo_some h'
      refine ⟨o0, h0, ?_⟩
      split at hi <;> exact hi

theorem inv_clearWeak {v : View} {ph : List Nat} {e : Option Nat} {l : Loc} {b : Nat} (hv : Inv v ph e)
    (hl : v.cell l = some (some ⟨b, true⟩)) : Inv ((v.setCell l none).setBack b (fun ls => ls.erase l)) ph e := by
  have hsome := @modInfo_of_some (v.setCell l none) b
  have hcell : ∀ k, ((v.setCell l none).setBack b (fun ls => ls.erase l)).cell k = if k = l then some none else v.cell k :=
    fun k => rfl
  constructor
  · intro a ha; exact modInfo_none (hv.fresh a ha)
  · intro a o ho
    obtain ⟨o0, h0, rfl⟩ := modInfo_some ho
    obtain ⟨L, ⟨hn, hm⟩, hc⟩ := hv.count a o0 h0
    refine ⟨L, ⟨hn, fun k => ?_⟩, by split <;> exact hc⟩
    rw [hm, hcell]
    by_cases hk : k = l
    · subst hk; rw [hl]; simp
    · simp [hk]
  · intro k p hp
    rw [hcell] at hp
    split at hp
    · cases hp
    · obtain ⟨o, h1⟩ := hv.live k p hp
      exact ⟨_, hsome h1⟩
  · intro a o ho
    obtain ⟨o0, h0, rfl⟩ := modInfo_some ho
    obtain ⟨h1, h2⟩ := hv.back a o0 h0
    by_cases hb : a = b
    · subst hb
      rw [if_pos rfl]
      refine ⟨h1.erase l, fun k => ?_⟩
      rw [hcell, h1.mem_erase_iff, h2]
      by_cases hk : k = l
      · simp [hk]
      · simp [hk]
    · rw [if_neg hb]
      refine ⟨h1, fun k => ?_⟩
      rw [hcell, h2]
      by_cases hk : k = l
      · subst hk; rw [hl]; simp [Ne.symm hb]
      · simp [hk]
  · intro a o ho hne
    obtain ⟨o0, h0, rfl⟩ := modInfo_some ho
    have := hv.pos a o0 h0 hne
    split <;> exact this
  · intro a ha
    obtain ⟨o, h1⟩ := hv.phl a ha
    exact ⟨_, hsome h1⟩
  · intro k a hk
    rw [hcell] at hk
    split at hk
    · cases hk
    · exact hv.wk k a hk
  · intro a i
    have h1 := hv.sl a i
    rw [hcell]
    constructor
    · intro hc
      have : ∃ c, v.cell (.slot a i) = some c := by
        by_cases hk : Loc.slot a i = l
        · rw [hk]; exact ⟨_, hl⟩
        · rwa [if_neg hk] at hc
      obtain ⟨o, h2, h3⟩ := h1.mp this
      refine ⟨_, hsome h2, ?_⟩
      split <;> exact h3
    · rintro ⟨o, h2, h3⟩
      obtain ⟨o0, h4, rfl⟩ := modInfo_some h2
      by_cases hk : Loc.slot a i = l
      · rw [if_pos hk]; exact ⟨_, rfl⟩
      · rw [if_neg hk]
        refine h1.mpr ⟨o0, h4, ?_⟩
        split at h3 <;> exact h3

theorem inv_setWeak {v : View} {ph : List Nat} {e : Option Nat} {l : Loc} {b : Nat} (hv : Inv v ph e)
    (hl : v.cell l = some none) (hb : ∃ o, v.info b = some o) (hs : ∃ x i, l = .slot x i) :
    Inv ((v.setCell l (some ⟨b, true⟩)).setBack b (fun ls => ls ++ [l])) ph e := by
  have hsome := @modInfo_of_some (v.setCell l (some ⟨b, true⟩)) b
  have hcell : ∀ k, ((v.setCell l (some ⟨b, true⟩)).setBack b (fun ls => ls ++ [l])).cell k =
      if k = l then some (some ⟨b, true⟩) else v.cell k := fun k => rfl
  constructor
  · intro a ha; exact modInfo_none (hv.fresh a ha)
  · intro a o ho
    obtain ⟨o0, h0, rfl⟩ := modInfo_some ho
    obtain ⟨L, ⟨hn, hm⟩, hc⟩ := hv.count a o0 h0
    refine ⟨L, ⟨hn, fun k => ?_⟩, by split <;> exact hc⟩
    rw [hm, hcell]
    by_cases hk : k = l
    · subst hk; rw [hl]; simp
    · simp [hk]
  · intro k p hp
    rw [hcell] at hp
    split at hp
    · cases hp
      obtain ⟨o, h1⟩ := hb
      exact ⟨_, hsome h1⟩
    · obtain ⟨o, h1⟩ := hv.live k p hp
      exact ⟨_, hsome h1⟩
  · intro a o ho
    obtain ⟨o0, h0, rfl⟩ := modInfo_some ho
    obtain ⟨h1, h2⟩ := hv.back a o0 h0
    by_cases hb : a = b
    · subst hb
      rw [if_pos rfl]
      have hnl : l ∉ o0.backrefs := by rw [h2, hl]; simp
      refine ⟨?_, fun k => ?_⟩
      · rw [List.nodup_append]
        refine ⟨h1, by simp, ?_⟩
        intro x hx y hy
        rw [List.mem_singleton.mp hy]
        rintro rfl
        exact hnl hx
      · rw [hcell, List.mem_append, h2, List.mem_singleton]
        by_cases hk : k = l
        · simp [hk]
        · simp [hk]
    · rw [if_neg hb]
      refine ⟨h1, fun k => ?_⟩
      rw [hcell, h2]
      by_cases hk : k = l
      · subst hk; rw [hl]; simp [Ne.symm hb]
      · simp [hk]
  · intro a o ho hne
    obtain ⟨o0, h0, rfl⟩ := modInfo_some ho
    have := hv.pos a o0 h0 hne
    split <;> exact this
  · intro a ha
    obtain ⟨o, h1⟩ := hv.phl a ha
    exact ⟨_, hsome h1⟩
  · intro k a hk
    rw [hcell] at hk
    split at hk
    · rename_i hk'; rw [hk']; exact hs
    · exact hv.wk k a hk
  · intro a i
    have h1 := hv.sl a i
    rw [hcell]
    constructor
    · intro hc
      have : ∃ c, v.cell (.slot a i) = some c := by
        by_cases hk : Loc.slot a i = l
        · rw [hk]; exact ⟨_, hl⟩
        · rwa [if_neg hk] at hc
      obtain ⟨o, h2, h3⟩ := h1.mp this
      refine ⟨_, hsome h2, ?_⟩
      split <;> exact h3
    · rintro ⟨o, h2, h3⟩
      obtain ⟨o0, h4, rfl⟩ := modInfo_some h2
      by_cases hk : Loc.slot a i = l
      · rw [if_pos hk]; exact ⟨_, rfl⟩
      · rw [if_neg hk]
        refine h1.mpr ⟨o0, h4, ?_⟩
        split at h3 <;> exact h3


/-! ### the runtime functions on the view -/

/-- The view after dropping the weak tag of a place that holds a weak reference to `b`. -/
def View.unweak (v : View) (l : Loc) (b : Nat) : View :=
  ((v.setCell l (some ⟨b, false⟩)).addCount b 1).setBack b (fun ls => ls.erase l)

theorem inv_unweak {v : View} {ph : List Nat} {e : Option Nat} {l : Loc} {b : Nat} (hv : Inv v ph e)
    (hl : v.cell l = some (some ⟨b, true⟩)) : Inv (v.unweak l b) ph e := by
  have h1 := inv_clearWeak hv hl
  obtain ⟨o, ho⟩ := hv.live l _ hl
  have h2 := inv_strong (l := l) (a := b) h1 (by simp [View.setBack, View.modInfo, View.setCell])
    ⟨_, modInfo_of_some (v := v.setCell l none) (b := b) ho⟩ (e' := e) (fun _ _ h => h)
  have : v.unweak l b = ((((v.setCell l none).setBack b (fun ls => ls.erase l)).addCount b 1).setCell l (some ⟨b, false⟩)) := by
    apply View.ext'
    · intro k
      simp only [View.unweak, View.setBack, View.addCount, View.modInfo, View.setCell]
      split <;> rfl
    · intro c
      simp only [View.unweak, View.setBack, View.addCount, View.modInfo, View.setCell]
      by_cases hc : c = b
      · subst hc; simp only [if_true]; cases v.info c <;> rfl
      · simp only [if_neg hc]
    · rfl
    · rfl
  rwa [this]

def View.unweakCell (v : View) (l : Loc) : Cell → View
  | some ⟨b, true⟩ => v.unweak l b
  | _ => v

theorem unweaken_ok {h : Heap} {ph : List Nat} {e : Option Nat} {l : Loc} {c : Cell} (hv : Inv h.view ph e)
    (hc : h.view.cell l = some c) :
    ∃ h', h.unweaken l = .ok h' ∧ h'.view = h.view.unweakCell l c := by
  unfold Heap.unweaken
  rw [read_ok hc]
  cases c with
  | none => exact ⟨h, rfl, rfl⟩
  | some p =>
    obtain ⟨b, w⟩ := p
    cases w with
    | false => exact ⟨h, rfl, rfl⟩
    | true =>
      obtain ⟨h1, e1, v1⟩ := write_ok (c := some ⟨b, false⟩) ⟨_, hc⟩
      obtain ⟨o, ho⟩ := hv.live l _ hc
      obtain ⟨h2, e2, v2⟩ := addCount_ok (h := h1) (a := b) (d := 1) (by rw [v1]; exact ⟨o, ho⟩)
      obtain ⟨h3, e3, v3⟩ := setBackrefs_ok (h := h2) (a := b) (f := fun ls => ls.erase l)
        (by rw [v2, v1]; exact ⟨_, modInfo_of_some (v := h.view.setCell l (some ⟨b, false⟩)) (b := b) ho⟩)
      refine ⟨h3, ?_, by rw [v3, v2, v1]; rfl⟩
      simp only [Res.ok_bind, if_true, e1, e2, e3]

/-- After the first half of `assign_object`. -/
def View.stored (v : View) (l : Loc) : Option Nat → View
  | some a => (v.addCount a 1).setCell l (some ⟨a, false⟩)
  | none => v.setCell l none

theorem inv_stored {v : View} {ph : List Nat} {e : Option Nat} {l : Loc} {object : Option Nat} (hv : Inv v ph e)
    (hl : v.cell l = some none) (ho : ∀ a, object = some a → ∃ o, v.info a = some o) (he : ∀ a, e = some a → object = some a) :
    Inv (v.stored l object) ph none := by
  cases object with
  | none =>
    have : v.stored l none = v := by
      apply View.ext'
      · intro k
        simp only [View.stored, View.setCell]
        split
        · rename_i hk; rw [hk, hl]
        · rfl
      · intro a; rfl
      · rfl
      · rfl
    rw [this]
    cases e with
    | none => exact hv
    | some a => cases he a rfl
  | some a =>
    refine inv_strong hv hl (ho a rfl) (fun b hb _ h => ?_)
    have := he b h
    cases this
    exact hb rfl

theorem setCell_setCell {v : View} {l : Loc} {c c' : Cell} : (v.setCell l c).setCell l c' = v.setCell l c' := by
  apply View.ext'
  · intro k; simp only [View.setCell]; split <;> rfl
  · intro a; rfl
  · rfl
  · rfl

theorem stored_setCell {v : View} {l : Loc} {c : Cell} {object : Option Nat} :
    (v.setCell l c).stored l object = v.stored l object := by
  cases object with
  | none => exact setCell_setCell
  | some a => exact setCell_setCell (v := v.addCount a 1)

def View.incO (v : View) : Option Nat → View
  | some a => v.addCount a 1
  | none => v

/-- One more running release for the old contents of a place. -/
def phOf (c : Cell) (ph : List Nat) : List Nat :=
  match c with
  | none => ph
  | some p => p.addr :: ph

/-- The first half of `assign_object`: the place holds the new object, the old one is still counted. -/
theorem store_ok {h : Heap} {ph : List Nat} {l : Loc} {c : Cell} {object : Option Nat} {e : Option Nat}
    (hv : Inv h.view ph e) (hc : h.view.cell l = some c)
    (ho : ∀ a, object = some a → ∃ o, h.view.info a = some o) (he : ∀ a, e = some a → object = some a) :
    ∃ h', h.store l object = .ok (c.map Ptr.addr, h') ∧
      Inv h'.view (phOf c ph) none ∧
      (∀ k, h'.view.cell k = if k = l then some (object.map fun a => ⟨a, false⟩) else h.view.cell k) ∧
      h'.view.next = h.view.next ∧ h'.view.top = h.view.top ∧
      (∀ a, (h'.view.info a).map (fun i => (i.cls, i.nslots)) = (h.view.info a).map (fun i => (i.cls, i.nslots))) := by
  obtain ⟨h1, e1, v1⟩ := unweaken_ok hv hc
  have hinfo1 : ∀ a, (h1.view.info a).map (fun i => (i.cls, i.nslots)) = (h.view.info a).map (fun i => (i.cls, i.nslots)) := by
    intro a
    rw [v1]
    unfold View.unweakCell
    split
    · rename_i b
      simp only [View.unweak, View.setBack, View.addCount, View.modInfo, View.setCell]
      by_cases hab : a = b
      · subst hab; simp only [if_true]; cases h.view.info a <;> rfl
      · simp only [if_neg hab]
    · rfl
  have hsome1 : ∀ a, (∃ o, h.view.info a = some o) → ∃ o, h1.view.info a = some o := by
    rintro a ⟨o, ho⟩
    have := hinfo1 a
    rw [ho] at this
    cases hh : h1.view.info a with
    | none => rw [hh] at this; cases this
    | some o' => exact ⟨o', rfl⟩
  have hcell1 : ∀ k, k ≠ l → h1.view.cell k = h.view.cell k := by
    intro k hk
    rw [v1]
    unfold View.unweakCell
    split
    · simp [View.unweak, View.setBack, View.addCount, View.modInfo, View.setCell, hk]
    · rfl
  have hl1 : h1.view.cell l = some (c.map fun p => ⟨p.addr, false⟩) := by
    rw [v1]
    unfold View.unweakCell
    split
    · simp [View.unweak, View.setBack, View.addCount, View.modInfo, View.setCell]
    · rename_i hne
      rw [hc]
      cases c with
      | none => rfl
      | some p =>
        obtain ⟨b, w⟩ := p
        cases w with
        | false => rfl
        | true => exact absurd rfl (hne b)
  have hnt : h1.view.next = h.view.next ∧ h1.view.top = h.view.top := by
    rw [v1]; unfold View.unweakCell; split <;> exact ⟨rfl, rfl⟩
  have hv1 : Inv h1.view ph e := by
    rw [v1]
    unfold View.unweakCell
    split
    · exact inv_unweak hv hc
    · exact hv
  -- the counts and the write
  have hinc : ∃ h2, h1.incOpt object = .ok h2 ∧ h2.view = h1.view.incO object := by
    cases object with
    | none => exact ⟨h1, rfl, rfl⟩
    | some a => exact addCount_ok (hsome1 a (ho a rfl))
  obtain ⟨h2, e2, v2⟩ := hinc
  obtain ⟨h3, e3, v3⟩ := write_ok (h := h2) (l := l) (c := object.map fun a => ⟨a, false⟩)
    (by rw [v2]; cases object <;> exact ⟨_, hl1⟩)
  have hv3 : h3.view = h1.view.stored l object := by
    rw [v3, v2]; cases object <;> rfl
  refine ⟨h3, ?_, ?_, ?_, ?_, ?_, ?_⟩
  · unfold Heap.store
    rw [read_ok hc]
    simp only [Res.ok_bind, e1, e2, e3]
  · rw [hv3]
    cases c with
    | none => exact inv_stored hv1 hl1 (fun a ha => hsome1 a (ho a ha)) he
    | some p =>
      have h4 := inv_clear hv1 hl1
      have h5 := inv_stored (l := l) (object := object) h4 (by simp [View.setCell])
        (fun a ha => hsome1 a (ho a ha)) he
      rwa [stored_setCell] at h5
  · intro k
    rw [hv3]
    have : (h1.view.stored l object).cell k = if k = l then some (object.map fun a => ⟨a, false⟩) else h1.view.cell k := by
      cases object <;> rfl
    rw [this]
    by_cases hk : k = l
    · rw [if_pos hk, if_pos hk]
    · rw [if_neg hk, if_neg hk, hcell1 k hk]
  · rw [hv3]; cases object <;> exact hnt.1
  · rw [hv3]; cases object <;> exact hnt.2
  · intro a
    rw [← hinfo1 a, hv3]
    cases object with
    | none => rfl
    | some b =>
      simp only [View.stored, View.addCount, View.modInfo, View.setCell]
      by_cases hab : a = b
      · subst hab; simp only [if_true]; cases h1.view.info a <;> rfl
      · simp only [if_neg hab]

end SPVM.Heap
