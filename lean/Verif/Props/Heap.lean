import Verif.Lemmas.HeapKeep
set_option linter.unusedSimpArgs false
set_option linter.unusedVariables false
/-!
# C32, C33, C34: reference counts, weak references, mortal scopes
-/
namespace SPVM.Heap

/-! ## Specification -/

/-- `L` lists exactly, without repetition, the places that hold a strong reference to `a`. -/
def StrongPlaces (h : Heap) (a : Nat) (L : List Loc) : Prop :=
  L.Nodup ∧ ∀ l, l ∈ L ↔ h.cell l = some (some ⟨a, false⟩)

def Alive (h : Heap) (a : Nat) : Prop := ∃ o, h.objs a = some o

/-- Every object's count is the number of places that hold a strong reference to it and this number is not 0; every
reference, strong or weak, refers to an object that has not been freed. -/
structure Consistent (h : Heap) : Prop where
  counts : ∀ a o, h.objs a = some o → ∃ L, StrongPlaces h a L ∧ o.count = L.length ∧ L ≠ []
  noDangling : ∀ l p, h.cell l = some (some p) → Alive h p.addr

/-- No destructor that runs while the fields of another object are being cleared stores an object into that object. -/
def NoRefill (D : Dtors) (fuel : Nat) (os : List Op) (h : Heap) : Prop := go D true fuel [] (.ops os) h ≠ .refill

/-- States of a program: the result of some operations from a new stack. -/
def Reachable (D : Dtors) (h : Heap) : Prop :=
  ∃ n fuel os, NoRefill D fuel os (Heap.init n) ∧ run D fuel os (Heap.init n) = .ok h

/-- No class has a destructor. -/
def NoDtors (D : Dtors) : Prop := ∀ c, D.hasDtor c = false

/-! ## Bridge to the invariant -/

theorem inv_consistent {h : Heap} (hv : Inv h.view [] none) : Consistent h := by
  constructor
  · intro a o ho
    have hi : h.view.info a = some o.info := by rw [info_view, ho]; rfl
    obtain ⟨L, ⟨h1, h2⟩, h3⟩ := hv.count a _ hi
    have hpos := hv.pos a _ hi (by simp)
    refine ⟨L, ⟨h1, h2⟩, by simpa [Obj.info] using h3, ?_⟩
    rintro rfl
    simp at h3
    rw [h3] at hpos
    exact absurd hpos (Int.lt_irrefl 0)
  · intro l p hp
    obtain ⟨o, ho⟩ := hv.live l p hp
    obtain ⟨ob, _, h2, _⟩ := obj_ok ho
    exact ⟨ob, h2⟩

theorem run_ops {D : Dtors} {fuel : Nat} {os : List Op} {h : Heap} (hv : Inv h.view [] none) (hm : Mort h.view)
    (hr : NoRefill D fuel os h) : run D fuel os h = .limit ∨
      ∃ h', run D fuel os h = .ok h' ∧ Inv h'.view [] none ∧ Mort h'.view ∧ Frame [] h.view h'.view := by
  have hs : run D fuel os h = go D true fuel [] (.ops os) h := go_strict D fuel [] [] (.ops os) h hr
  rw [hs]
  rcases go_inv D fuel [] [] (.ops os) h (by simp) ⟨hv, hm⟩ with h1 | h1 | h1
  · exact absurd h1 hr
  · exact .inl h1
  · exact .inr h1

theorem reachable_inv {D : Dtors} {h : Heap} (hr : Reachable D h) : Inv h.view [] none ∧ Mort h.view := by
  obtain ⟨n, fuel, os, h1, h2⟩ := hr
  rcases run_ops (init_inv n).1 (init_inv n).2 h1 with h3 | ⟨h', h3, h4, h5, _⟩
  · rw [h2] at h3; cases h3
  · rw [h2] at h3; cases h3; exact ⟨h4, h5⟩

theorem nodtors_norefill {D : Dtors} (hD : NoDtors D) (fuel : Nat) (os : List Op) (h : Heap) : NoRefill D fuel os h :=
  nodtor_norefill hD fuel [] (.ops os) h (.inr rfl)

/-! ## C32 -/

/-- C32 (partial: destructors must not store into an object whose fields are being cleared, see
`c32_destructor_leak_violated` and `c32_destructor_use_after_free_violated`).  After any sequence of operations, with
any destructors, the counts are exact, nothing dangles, and no run touches freed memory.  Missing for the full claim:
the programs excluded by `NoRefill`. -/
theorem c32_counts_exact_partial (D : Dtors) (n fuel : Nat) (os : List Op) (hr : NoRefill D fuel os (Heap.init n)) :
    run D fuel os (Heap.init n) = .limit ∨ ∃ h, run D fuel os (Heap.init n) = .ok h ∧ Consistent h := by
  rcases run_ops (init_inv n).1 (init_inv n).2 hr with h | ⟨h, h1, h2, _⟩
  · exact .inl h
  · exact .inr ⟨h, h1, inv_consistent h2⟩

/-- C32 for programs whose classes have no `DESTROY`: no further condition. -/
theorem c32_counts_exact_no_destructors (D : Dtors) (hD : NoDtors D) (n fuel : Nat) (os : List Op) :
    run D fuel os (Heap.init n) = .limit ∨ ∃ h, run D fuel os (Heap.init n) = .ok h ∧ Consistent h :=
  c32_counts_exact_partial D n fuel os (nodtors_norefill hD _ _ _)

/-- C32: an object that was created is alive exactly as long as some place holds a strong reference to it. -/
theorem c32_alive_iff_referenced (D : Dtors) (h : Heap) (hr : Reachable D h) (a : Nat) :
    Alive h a ↔ ∃ l, h.cell l = some (some ⟨a, false⟩) := by
  have hc := inv_consistent (reachable_inv hr).1
  constructor
  · rintro ⟨o, ho⟩
    obtain ⟨L, ⟨_, hm⟩, _, hne⟩ := hc.counts a o ho
    cases L with
    | nil => exact absurd rfl hne
    | cons l L => exact ⟨l, (hm l).mp List.mem_cons_self⟩
  · rintro ⟨l, hl⟩
    exact hc.noDangling l _ hl

/-- Operations whose cost is not bounded by an allocation limit or that only group others. -/
def Plain : Op → Prop
  | .pushMortal _ => False
  | .scope _ => False
  | _ => True

theorem term_op {D : Dtors} (hD : NoDtors D) {h : Heap} (hv : Inv h.view [] none) (hm : Mort h.view) {o : Op} (ho : Plain o) :
    ∃ f, go D true f [] (.op o) h ≠ .limit := by
  have hvar : ∀ {x : Nat} {v : Option Nat}, x < h.vars.length → (∀ a, v = some a → ∃ i, h.view.info a = some i) →
      ∃ f, go D true f [] (.assign (.var x) v) h ≠ .limit := fun hx hval =>
    term_assign hD ⟨none, hv, by simp, hm, var_cell hx, hval, by simp, by simp⟩
  have hslot : ∀ {a i : Nat} {v : Option Nat} {c : Cell}, h.view.cell (.slot a i) = some c →
      (∀ a, v = some a → ∃ i, h.view.info a = some i) →
      ∃ f, go D true f [] (.assign (.slot a i) v) h ≠ .limit := fun hc hval =>
    term_assign hD ⟨none, hv, by simp, hm, ⟨_, hc⟩, hval, by simp, by simp⟩
  have one : ∀ {c : Cmd}, go D true 1 [] c h ≠ .limit → ∃ f, go D true f [] c h ≠ .limit := fun hh => ⟨1, hh⟩
  cases o with
  | new x n cls =>
    by_cases hx : x < h.vars.length
    · obtain ⟨f, hf⟩ := term_assign hD (l := .var x) (o := some h.next) (h := h.alloc n cls)
        ⟨some h.next, inv_alloc hv, fun a ha => ha, mort_alloc hm, var_cell (h := h.alloc n cls) hx,
          fun a ha => by
            cases ha
            rw [view_alloc]
            exact ⟨_, if_pos rfl⟩, by simp, by simp⟩
      refine ⟨f + 1, ?_⟩
      unfold go
      rw [if_pos hx]; exact hf
    · apply one
      unfold go
      rw [if_neg hx]; simp
  | move x y =>
    by_cases hx : x < h.vars.length
    · obtain ⟨f, hf⟩ := hvar hx (fun a ha => val_live hv ha)
      refine ⟨f + 1, ?_⟩
      unfold go
      rw [if_pos hx]; exact hf
    · apply one
      unfold go
      rw [if_neg hx]; simp
  | clear x =>
    by_cases hx : x < h.vars.length
    · obtain ⟨f, hf⟩ := hvar (v := none) hx (by simp)
      refine ⟨f + 1, ?_⟩
      unfold go
      rw [if_pos hx]; exact hf
    · apply one
      unfold go
      rw [if_neg hx]; simp
  | getField x y i =>
    cases hs : h.slotOf y i with
    | none => apply one; unfold go; rw [hs]; simp
    | some ac =>
      obtain ⟨a, c⟩ := ac
      have := slotOf_spec hs
      by_cases hx : x < h.vars.length
      · obtain ⟨f, hf⟩ := hvar (v := c.map Ptr.addr) hx (fun b hb => by
          cases c with
          | none => cases hb
          | some p => cases hb; exact hv.live _ _ this.2)
        refine ⟨f + 1, ?_⟩
        unfold go
        rw [hs]
        simp only []
        rw [if_pos hx]; exact hf
      · apply one
        unfold go
        rw [hs]
        simp only []
        rw [if_neg hx]; simp
  | setField y i x =>
    cases hs : h.slotOf y i with
    | none => apply one; unfold go; rw [hs]; simp
    | some ac =>
      obtain ⟨a, c⟩ := ac
      have := slotOf_spec hs
      obtain ⟨f, hf⟩ := hslot this.2 (fun b hb => val_live hv (r := x) hb)
      refine ⟨f + 1, ?_⟩
      unfold go
      rw [hs]
      simp only []
      rw [if_neg (by simp)]; exact hf
  | clearField y i =>
    cases hs : h.slotOf y i with
    | none => apply one; unfold go; rw [hs]; simp
    | some ac =>
      obtain ⟨a, c⟩ := ac
      have := slotOf_spec hs
      obtain ⟨f, hf⟩ := hslot (v := none) this.2 (by simp)
      refine ⟨f + 1, ?_⟩
      unfold go
      rw [hs]; exact hf
  | weaken y i =>
    cases hs : h.slotOf y i with
    | none => apply one; unfold go; rw [hs]; simp
    | some ac =>
      obtain ⟨a, c⟩ := ac
      have := slotOf_spec hs
      have hw : ∃ f, go D true f [] (.weaken (.slot a i)) h ≠ .limit := by
        cases c with
        | none => exact ⟨1, by unfold go; rw [read_ok this.2]; simp⟩
        | some p =>
          obtain ⟨b, w⟩ := p
          cases w with
          | true => exact ⟨1, by unfold go; rw [read_ok this.2]; simp⟩
          | false =>
            obtain ⟨o, ho⟩ := hv.live _ _ this.2
            simp only at ho
            obtain ⟨ob, e1, hob, hobi⟩ := obj_ok ho
            obtain ⟨h1, e2, v2⟩ := write_ok (c := none) ⟨_, this.2⟩
            obtain ⟨f, hf⟩ := term_release hD h1.next [] [] b h1 List.nodup_nil (by simp) (by simp)
              ⟨by rw [v2]; exact inv_clear hv this.2, by rw [v2]; exact setCell_mort hm ⟨_, this.2⟩ (.inl rfl)⟩
            obtain ⟨h2, e3, v3⟩ := write_ok (c := some ⟨b, true⟩) ⟨_, this.2⟩
            obtain ⟨h3, e4, v4⟩ := addCount_ok (h := h2) (a := b) (d := -1) (by rw [v3]; exact ⟨o, ho⟩)
            obtain ⟨h4, e5, v5⟩ := setBackrefs_ok (h := h3) (a := b) (f := fun ls => ls ++ [Loc.slot a i])
              (by rw [v4, v3]; exact ⟨_, modInfo_of_some (v := h.view.setCell (.slot a i) (some ⟨b, true⟩)) (b := b) ho⟩)
            refine ⟨f + 1, ?_⟩
            unfold go
            rw [read_ok this.2]
            simp only [Res.ok_bind, e1, if_neg (show ¬ (false = true) by simp)]
            split
            · rw [e2]; exact hf
            · rw [e3]; simp only [Res.ok_bind]; rw [e4]; simp only [Res.ok_bind]; rw [e5]; simp
      obtain ⟨f, hf⟩ := hw
      refine ⟨f + 1, ?_⟩
      unfold go
      rw [hs]; exact hf
  | unweaken y i =>
    apply one
    unfold go
    cases hs : h.slotOf y i with
    | none => simp
    | some ac =>
      obtain ⟨a, c⟩ := ac
      have := slotOf_spec hs
      obtain ⟨h1, e1, v1⟩ := unweaken_ok hv this.2
      simp only []
      rw [e1]; simp
  | pushMortal y => exact absurd ho id
  | scope body => exact absurd ho id

theorem term_ops {D : Dtors} (hD : NoDtors D) {os : List Op} : ∀ {h : Heap}, Inv h.view [] none → Mort h.view →
    (∀ o, o ∈ os → Plain o) → ∃ f, go D true f [] (.ops os) h ≠ .limit := by
  induction os with
  | nil => intro h _ _ _; exact ⟨1, by unfold go; simp⟩
  | cons o rest ih =>
    intro h hv hm hp
    obtain ⟨f1, hf1⟩ := term_op hD hv hm (hp o List.mem_cons_self)
    rcases go_inv D f1 [] [] (.op o) h (by simp) ⟨hv, hm⟩ with q | q | ⟨h1, e1, hv1, hm1, _⟩
    · exact absurd q (nodtor_norefill hD _ _ _ _ (.inr rfl))
    · exact absurd q hf1
    · obtain ⟨f2, hf2⟩ := ih hv1 hm1 (fun o ho => hp o (List.mem_cons_of_mem _ ho))
      refine ⟨max f1 f2 + 1, ?_⟩
      unfold go
      rw [go_mono D true (Nat.le_max_left f1 f2) hf1, e1]
      simp only [Res.ok_bind]
      rw [go_mono D true (Nat.le_max_right f1 f2) hf2]
      exact hf2

/-- C32: without destructors every program (without mortal stack operations, which can run out of memory) terminates
normally, whatever the shape of the heap: releasing an object never runs forever and never touches freed memory. -/
theorem c32_terminates_no_destructors (D : Dtors) (hD : NoDtors D) (n : Nat) (os : List Op) (hp : ∀ o, o ∈ os → Plain o) :
    ∃ fuel h, run D fuel os (Heap.init n) = .ok h ∧ Consistent h := by
  obtain ⟨f, hf⟩ := term_ops hD (init_inv n).1 (init_inv n).2 hp
  have hr := nodtors_norefill hD f os (Heap.init n)
  have hs : run D f os (Heap.init n) = go D true f [] (.ops os) (Heap.init n) := go_strict D f [] [] _ _ hr
  rcases c32_counts_exact_no_destructors D hD n f os with h | ⟨h, h1, h2⟩
  · rw [hs] at h; exact absurd h hf
  · exact ⟨f, h, h1, h2⟩

/-! ### The effect of single operations (no destructors) -/

/-- Every place other than `l` (in objects that are alive afterwards, and on the mortal stack below its top) keeps its
contents, except that a weak reference to an object that no longer exists becomes `undef`. -/
def Kept (h h' : Heap) (l : Loc) : Prop :=
  ∀ k c, k ≠ l → h.cell k = some c → (∀ b i, k = .slot b i → Alive h' b) → (∀ i, k = .mortal i → i < h.top) →
    h'.cell k = some c ∨ ∃ q, c = some ⟨q, true⟩ ∧ h'.cell k = some none ∧ ¬ Alive h' q

theorem vc {h : Heap} {l : Loc} {c : Cell} (hc : h.cell l = some c) : h.view.cell l = some c := hc

theorem alive_live {h : Heap} {a : Nat} : Alive h a ↔ h.view.Live a := by
  constructor
  · rintro ⟨o, ho⟩; exact ⟨o.info, by rw [info_view, ho]; rfl⟩
  · rintro ⟨o, ho⟩
    obtain ⟨ob, _, h2, _⟩ := obj_ok ho
    exact ⟨ob, h2⟩

theorem assign_effect {D : Dtors} (hD : NoDtors D) {h : Heap} {l : Loc} {o : Option Nat} {e : Option Nat}
    (hv : Inv h.view [] e) (he : ∀ a, e = some a → o = some a) (hm : Mort h.view) (hc : ∃ c, h.view.cell l = some c)
    (ho : ∀ a, o = some a → ∃ i, h.view.info a = some i) (hl : ∀ i, l ≠ .mortal i) :
    ∃ f h', go D true f [] (.assign l o) h = .ok h' ∧ Inv h'.view [] none ∧ Mort h'.view ∧ h'.top = h.top ∧
      Kept h h' l ∧ (∀ b, Alive h' b → Alive h b) ∧
      ((∀ b i, l = .slot b i → Alive h' b) → h'.cell l = some (o.map fun a => ⟨a, false⟩)) ∧
      ∀ k p, k ≠ l → h'.cell k = some (some p) → h.cell k = some (some p) := by
  have hpa : Pre [] [] h (.assign l o) := ⟨e, hv, he, hm, hc, ho, by simp, fun i hi => absurd hi (hl i)⟩
  obtain ⟨f, hf⟩ := term_assign hD hpa
  rcases go_inv D f [] [] (.assign l o) h (by simp) hpa with q | q | ⟨h1, e1, hv1, hm1, hf1, ht1⟩
  · exact absurd q (nodtor_norefill hD _ _ _ _ (.inl trivial))
  · exact absurd q hf
  · have s1 := nodtor_shrink hD f [] [] (.assign l o) h h1 trivial (by simp) hpa e1
    have k1 := nodtor_keep hD f [] [] (.assign l o) h h1 trivial (by simp) hpa e1
    simp only [base] at s1 k1
    refine ⟨f, h1, e1, hv1, hm1, ht1, ?_, fun b hb => alive_live.mpr (k1.live b (alive_live.mp hb)), ?_, ?_⟩
    · intro k c hk hkc hka hkm
      have hb : (h.view.setCell l (o.map fun a => ⟨a, false⟩)).cell k = some c := by
        simp only [View.setCell]; rw [if_neg hk]; exact hkc
      cases k with
      | var i => exact .inl ((s1.vars i).trans hb)
      | mortal i => exact .inl ((hf1.mort i (hkm i rfl)).trans hb)
      | slot b i =>
        have hal := alive_live.mp (hka b i rfl)
        cases c with
        | none => exact .inl (k1.undef b i (by simp) hb hal)
        | some p =>
          obtain ⟨q, w⟩ := p
          cases w with
          | false => exact .inl (k1.strong b i q (by simp) hb hal)
          | true =>
            rcases k1.weak b i q (by simp) hb hal with h2 | ⟨h2, h3⟩
            · exact .inl h2
            · exact .inr ⟨q, rfl, h2, fun hh => h3 (alive_live.mp hh)⟩
    · intro hla
      have hb : (h.view.setCell l (o.map fun a => ⟨a, false⟩)).cell l = some (o.map fun a => ⟨a, false⟩) := by
        simp [View.setCell]
      cases l with
      | var i => exact (s1.vars i).trans hb
      | mortal i => exact absurd rfl (hl i)
      | slot b i =>
        have hal := alive_live.mp (hla b i rfl)
        cases o with
        | none => exact k1.undef b i (by simp) hb hal
        | some a => exact k1.strong b i a (by simp) hb hal
    · intro k p hk hkp
      have := s1.cells k p hkp
      simp only [View.setCell] at this
      rw [if_neg hk] at this
      exact this

theorem run_one {D : Dtors} (hD : NoDtors D) {f : Nat} {o : Op} {h h' : Heap} (he : go D true f [] (.op o) h = .ok h') :
    run D (f + 1) [o] h = .ok h' := by
  have hnr : NoRefill D (f + 1) [o] h := nodtors_norefill hD _ _ _
  rw [run, go_strict D _ [] [] _ _ hnr]
  unfold go
  rw [he]
  simp only [Res.ok_bind]
  cases f with
  | zero => unfold go at he; cases he
  | succ f => unfold go; rfl

theorem ref_cell {h : Heap} {y : Ref} {a : Nat} (hy : h.val y = some a) :
    ∃ w, (∃ i, y = .var i ∧ h.cell (.var i) = some (some ⟨a, w⟩)) ∨ ∃ i, y = .mortal i ∧ h.cell (.mortal i) = some (some ⟨a, w⟩) := by
  unfold Heap.val at hy
  cases y with
  | var i =>
    simp only at hy
    split at hy
    · rename_i p hp; cases hy; exact ⟨p.weak, .inl ⟨i, rfl, hp⟩⟩
    · cases hy
  | mortal i =>
    simp only at hy
    split at hy
    · rename_i p hp; cases hy; exact ⟨p.weak, .inr ⟨i, rfl, hp⟩⟩
    · cases hy

/-- An object a program can name through a variable or the mortal stack is strongly referenced from there. -/
theorem ref_strong {h : Heap} (hv : Inv h.view [] none) (hm : Mort h.view) {y : Ref} {a : Nat} (hy : h.val y = some a) :
    ∃ k, h.cell k = some (some ⟨a, false⟩) ∧ (∀ b i, k ≠ .slot b i) ∧ ∀ i, k = .mortal i → i < h.top := by
  obtain ⟨w, h1⟩ := ref_cell hy
  have hw : ∀ k, (∀ b i, k ≠ Loc.slot b i) → h.cell k = some (some ⟨a, w⟩) → w = false := by
    intro k hk hc
    cases w with
    | false => rfl
    | true =>
      obtain ⟨b, i, h2⟩ := hv.wk k a hc
      exact absurd h2 (hk b i)
  rcases h1 with ⟨i, _, h1⟩ | ⟨i, _, h1⟩
  · have := hw _ (by simp) h1
    subst this
    exact ⟨.var i, h1, by simp, by simp⟩
  · have := hw _ (by simp) h1
    subst this
    refine ⟨.mortal i, h1, by simp, fun j hj => ?_⟩
    cases hj
    apply Classical.byContradiction
    intro hge
    have := hm.2.1 i _ (Nat.le_of_not_lt hge) h1
    cases this

theorem alive_of_cell {h : Heap} (hv : Inv h.view [] none) {k : Loc} {p : Ptr} (hk : h.cell k = some (some p)) :
    Alive h p.addr := (inv_consistent hv).noDangling k p hk

/-- C32: `$x = undef` stores `undef`, and changes nothing else in the objects that stay alive. -/
theorem c32_clear_effect (D : Dtors) (hD : NoDtors D) (h : Heap) (hr : Reachable D h) (x : Nat) (hx : x < h.vars.length) :
    ∃ fuel h', run D fuel [.clear x] h = .ok h' ∧ Consistent h' ∧ h'.cell (.var x) = some none ∧ Kept h h' (.var x) := by
  obtain ⟨hv, hm⟩ := reachable_inv hr
  obtain ⟨f, h1, e1, hv1, hm1, ht1, hk, _, hl, _⟩ := assign_effect hD (l := .var x) (o := none) hv (by simp) hm (var_cell hx) (by simp) (by simp)
  exact ⟨f + 2, h1, run_one hD (by unfold go; rw [if_pos hx]; exact e1), inv_consistent hv1, hl (by simp), hk⟩

/-- C32: `$x = $y` stores a strong reference, and changes nothing else in the objects that stay alive. -/
theorem c32_move_effect (D : Dtors) (hD : NoDtors D) (h : Heap) (hr : Reachable D h) (x : Nat) (y : Ref) (hx : x < h.vars.length) :
    ∃ fuel h', run D fuel [.move x y] h = .ok h' ∧ Consistent h' ∧
      h'.cell (.var x) = some ((h.val y).map fun a => ⟨a, false⟩) ∧ Kept h h' (.var x) := by
  obtain ⟨hv, hm⟩ := reachable_inv hr
  obtain ⟨f, h1, e1, hv1, hm1, ht1, hk, _, hl, _⟩ := assign_effect hD (l := .var x) (o := h.val y) hv (by simp) hm (var_cell hx)
    (fun a ha => val_live hv ha) (by simp)
  exact ⟨f + 2, h1, run_one hD (by unfold go; rw [if_pos hx]; exact e1), inv_consistent hv1, hl (by simp), hk⟩

/-- C32: `$x = new C` stores a strong reference to an object that did not exist before, whose fields are `undef`. -/
theorem c32_new_effect (D : Dtors) (hD : NoDtors D) (h : Heap) (hr : Reachable D h) (x n cls : Nat) (hx : x < h.vars.length) :
    ∃ fuel h' a, run D fuel [.new x n cls] h = .ok h' ∧ Consistent h' ∧ ¬ Alive h a ∧
      h'.cell (.var x) = some (some ⟨a, false⟩) ∧ (∀ i, i < n → h'.cell (.slot a i) = some none) ∧ Kept h h' (.var x) := by
  obtain ⟨hv, hm⟩ := reachable_inv hr
  have hnew : ¬ Alive h h.next := by
    intro hh
    obtain ⟨o, ho⟩ := alive_live.mp hh
    rw [hv.fresh h.next (Nat.le_refl _)] at ho; cases ho
  obtain ⟨f, h1, e1, hv1, hm1, ht1, hk, _, hl, _⟩ := assign_effect hD (h := h.alloc n cls) (l := .var x) (o := some h.next)
    (inv_alloc hv) (fun a ha => ha) (mort_alloc hm) (var_cell (h := h.alloc n cls) hx)
    (fun a ha => by cases ha; rw [view_alloc]; exact ⟨_, if_pos rfl⟩) (by simp)
  have hx1 := hl (by simp)
  have hal : Alive h1 h.next := alive_of_cell hv1 hx1
  refine ⟨f + 2, h1, h.next, run_one hD (by unfold go; rw [if_pos hx]; exact e1), inv_consistent hv1, hnew, hx1, ?_, ?_⟩
  · intro i hi
    have hc : (h.alloc n cls).cell (.slot h.next i) = some none := by
      have : (h.alloc n cls).objs h.next = some { count := 0, backrefs := [], slots := List.replicate n none, cls := cls } := if_pos rfl
      simp only [Heap.cell, this]
      simp [hi]
    rcases hk (.slot h.next i) none (by simp) hc (fun b j hb => by cases hb; exact hal) (by simp) with h2 | ⟨q, h2, _⟩
    · exact h2
    · cases h2
  · intro k c hne hc hka hkm
    have hc' : (h.alloc n cls).cell k = some c := by
      cases k with
      | var i => exact hc
      | mortal i => exact hc
      | slot b i =>
        have hb : b ≠ h.next := by
          rintro rfl
          apply hnew
          unfold Heap.cell at hc
          simp only at hc
          split at hc
          · rename_i o ho; exact ⟨o, ho⟩
          · cases hc
        have : (h.alloc n cls).objs b = h.objs b := if_neg hb
        simp only [Heap.cell, this]
        exact hc
    exact hk k c hne hc' hka hkm

/-- C32, C33: `$x = $y->{i}` stores a strong reference to the object in the field, whether the field is weak or not. -/
theorem c32_getField_effect (D : Dtors) (hD : NoDtors D) (h : Heap) (hr : Reachable D h) (x : Nat) (y : Ref) (i a : Nat)
    (c : Cell) (hx : x < h.vars.length) (hy : h.val y = some a) (hc : h.cell (.slot a i) = some c) :
    ∃ fuel h', run D fuel [.getField x y i] h = .ok h' ∧ Consistent h' ∧
      h'.cell (.var x) = some (c.map fun p => ⟨p.addr, false⟩) ∧ Kept h h' (.var x) := by
  obtain ⟨hv, hm⟩ := reachable_inv hr
  have hs : h.slotOf y i = some (a, c) := by unfold Heap.slotOf; rw [hy]; simp only []; rw [hc]
  obtain ⟨f, h1, e1, hv1, hm1, ht1, hk, _, hl, _⟩ := assign_effect hD (l := .var x) (o := c.map Ptr.addr) hv (by simp) hm (var_cell hx)
    (fun b hb => by
      cases c with
      | none => cases hb
      | some p => cases hb; exact hv.live _ _ (vc hc)) (by simp)
  refine ⟨f + 2, h1, run_one hD (by unfold go; rw [hs]; simp only []; rw [if_pos hx]; exact e1), inv_consistent hv1, ?_, hk⟩
  rw [hl (by simp)]
  cases c <;> rfl

/-- C32: `$y->{i} = $x` stores a strong reference (also if the field was weak before). -/
theorem c32_setField_effect (D : Dtors) (hD : NoDtors D) (h : Heap) (hr : Reachable D h) (x y : Ref) (i a : Nat)
    (hy : h.val y = some a) (hc : ∃ c, h.cell (.slot a i) = some c) :
    ∃ fuel h', run D fuel [.setField y i x] h = .ok h' ∧ Consistent h' ∧
      h'.cell (.slot a i) = some ((h.val x).map fun b => ⟨b, false⟩) ∧ Kept h h' (.slot a i) := by
  obtain ⟨hv, hm⟩ := reachable_inv hr
  obtain ⟨c, hc⟩ := hc
  have hs : h.slotOf y i = some (a, c) := by unfold Heap.slotOf; rw [hy]; simp only []; rw [hc]
  obtain ⟨f, h1, e1, hv1, hm1, ht1, hk, _, hl, _⟩ := assign_effect hD (l := .slot a i) (o := h.val x) hv (by simp) hm ⟨_, hc⟩
    (fun b hb => val_live hv hb) (by simp)
  obtain ⟨k, hk1, hk2, hk3⟩ := ref_strong hv hm hy
  have hal : Alive h1 a := by
    rcases hk k _ (hk2 a i) hk1 (fun b j hb => absurd hb (hk2 b j)) hk3 with h2 | ⟨q, h2, _⟩
    · exact alive_of_cell hv1 h2
    · cases h2
  refine ⟨f + 2, h1, run_one hD (by unfold go; rw [hs]; simp only []; rw [if_neg (by simp)]; exact e1), inv_consistent hv1, ?_, hk⟩
  exact hl (fun b j hb => by cases hb; exact hal)

/-- C32: when the last strong reference to an object, held by a variable, is overwritten with `undef`, the object is
freed and no reference to it is left. -/
theorem c32_last_reference_frees (D : Dtors) (hD : NoDtors D) (h : Heap) (hr : Reachable D h) (x a : Nat)
    (hx : h.cell (.var x) = some (some ⟨a, false⟩)) (hlast : ∀ l, l ≠ .var x → h.cell l ≠ some (some ⟨a, false⟩)) :
    ∃ fuel h', run D fuel [.clear x] h = .ok h' ∧ Consistent h' ∧ ¬ Alive h' a ∧
      (∀ l w, h'.cell l ≠ some (some ⟨a, w⟩)) ∧ Kept h h' (.var x) := by
  obtain ⟨hv, hm⟩ := reachable_inv hr
  have hxl : x < h.vars.length := (List.getElem?_eq_some_iff.mp (show h.vars[x]? = _ from hx)).1
  obtain ⟨f, h1, e1, hv1, hm1, ht1, hk, _, hl, hsh⟩ := assign_effect hD (l := .var x) (o := none) hv (by simp) hm (var_cell hxl) (by simp) (by simp)
  have hc1 := inv_consistent hv1
  have hdead : ¬ Alive h1 a := by
    rintro ⟨o, ho⟩
    obtain ⟨L, ⟨_, hm⟩, _, hne⟩ := hc1.counts a o ho
    cases L with
    | nil => exact absurd rfl hne
    | cons l L =>
      have hl1 := (hm l).mp List.mem_cons_self
      by_cases hlx : l = .var x
      · rw [hlx, hl (by simp)] at hl1; cases hl1
      · exact hlast l hlx (hsh l _ hlx hl1)
  exact ⟨f + 2, h1, run_one hD (by unfold go; rw [if_pos hxl]; exact e1), hc1, hdead,
    fun l w hlw => hdead (hc1.noDangling l _ hlw), hk⟩

theorem release_many {D : Dtors} {strict : Bool} {f : Nat} {dying ph : List Nat} {h : Heap} {a : Nat} {l : Loc}
    (hv : Inv h.view (a :: ph) none) (hl : h.cell l = some (some ⟨a, false⟩)) :
    ∃ h', go D strict (f + 1) dying (.release a) h = .ok h' ∧ h'.view = h.view.addCount a (-1) := by
  obtain ⟨o, ho⟩ := hv.phl a List.mem_cons_self
  obtain ⟨ob, e1, hob, hobi⟩ := obj_ok ho
  obtain ⟨L, ⟨hL1, hL2⟩, hL3⟩ := hv.count a o ho
  have hcnt : ob.count = o.count := by rw [← hobi]; rfl
  have hcc := count_cons a a ph
  rw [if_pos rfl] at hcc
  have hpos : 0 < L.length := List.length_pos_of_mem ((hL2 l).mpr hl)
  obtain ⟨h1, e2, v2⟩ := addCount_ok (d := -1) ⟨o, ho⟩
  refine ⟨h1, ?_, v2⟩
  unfold go
  rw [e1]
  simp only [Res.ok_bind]
  rw [if_pos (by omega)]
  exact e2

/-- C32: with any destructors, dropping a reference while another strong reference to the same object exists runs no
destructor and changes no other place: the object is not destroyed early. -/
theorem c32_not_last_keeps (D : Dtors) (h : Heap) (hr : Reachable D h) (x a : Nat)
    (hx : h.cell (.var x) = some (some ⟨a, false⟩)) (l : Loc) (hlx : l ≠ .var x) (hl : h.cell l = some (some ⟨a, false⟩)) :
    ∃ fuel h', run D fuel [.clear x] h = .ok h' ∧ Alive h' a ∧
      ∀ k, h'.cell k = if k = .var x then some none else h.cell k := by
  obtain ⟨hv, hm⟩ := reachable_inv hr
  have hxl : x < h.vars.length := (List.getElem?_eq_some_iff.mp (show h.vars[x]? = _ from hx)).1
  obtain ⟨h1, e1, hv1, hc1, _⟩ := store_ok (object := none) hv (vc hx) (by simp) (by simp)
  have hl1 : h1.cell l = some (some ⟨a, false⟩) := by
    have : h1.view.cell l = _ := hc1 l
    rw [if_neg hlx] at this
    exact this.trans hl
  obtain ⟨h2, e2, v2⟩ := release_many (D := D) (strict := false) (f := 0) (dying := []) hv1 hl1
  have hcell : ∀ k, h2.cell k = h1.cell k := by
    intro k
    have : h2.view.cell k = h1.view.cell k := by rw [v2]; rfl
    exact this
  refine ⟨4, h2, ?_, ?_, fun k => (hcell k).trans (hc1 k)⟩
  · show go D false 4 [] (.ops [.clear x]) h = _
    have e3 : go D false 2 [] (.assign (.var x) none) h = .ok h2 := by
      unfold go
      rw [e1]
      simp only [Res.ok_bind, Option.map_some]
      exact e2
    have e4 : go D false 3 [] (.op (.clear x)) h = .ok h2 := by
      unfold go
      rw [if_pos hxl]; exact e3
    unfold go
    rw [e4]
    simp only [Res.ok_bind]
    unfold go
    rfl
  · obtain ⟨o, ho⟩ := hv1.phl a List.mem_cons_self
    rw [alive_live, v2]
    exact ⟨_, modInfo_of_some ho⟩

/-! ### Sequences -/

theorem run_append (D : Dtors) (strict : Bool) {os1 : List Op} : ∀ {f1 f2 : Nat} {os2 : List Op} {h h1 : Heap} {r : Res Heap},
    go D strict f1 [] (.ops os1) h = .ok h1 → go D strict f2 [] (.ops os2) h1 = r → r ≠ .limit →
    go D strict (f1 + f2) [] (.ops (os1 ++ os2)) h = r := by
  induction os1 with
  | nil =>
    intro f1 f2 os2 h h1 r he1 he2 hr
    cases f1 with
    | zero => unfold go at he1; cases he1
    | succ f =>
      unfold go at he1
      cases he1
      have := go_mono D strict (g := f + 1 + f2) (by omega : f2 ≤ f + 1 + f2) (dying := []) (c := .ops os2) (h := h) (by rw [he2]; exact hr)
      rw [List.nil_append, this, he2]
  | cons o rest ih =>
    intro f1 f2 os2 h h1 r he1 he2 hr
    cases f1 with
    | zero => unfold go at he1; cases he1
    | succ f =>
      unfold go at he1
      cases hq : go D strict f [] (.op o) h with
      | ok h0 =>
        rw [hq] at he1
        simp only [Res.ok_bind] at he1
        have e0 : go D strict (f + f2) [] (.op o) h = .ok h0 := by
          rw [go_mono D strict (by omega : f ≤ f + f2) (by rw [hq]; simp), hq]
        have e1 := ih he1 he2 hr
        rw [Nat.add_right_comm, List.cons_append]
        unfold go
        rw [e0]
        exact e1
      | ub => rw [hq] at he1; cases he1
      | refill => rw [hq] at he1; cases he1
      | limit => rw [hq] at he1; cases he1

/-- States reached from a reachable state are reachable: the theorems about one operation apply along any program. -/
theorem reachable_run {D : Dtors} {h h' : Heap} {fuel : Nat} {os : List Op} (hr : Reachable D h) (hn : NoRefill D fuel os h)
    (he : run D fuel os h = .ok h') : Reachable D h' := by
  obtain ⟨n, f0, os0, h1, h2⟩ := hr
  have e1 : go D true f0 [] (.ops os0) (Heap.init n) = .ok h := by rw [← go_strict D f0 [] [] _ _ h1]; exact h2
  have e2 : go D true fuel [] (.ops os) h = .ok h' := by rw [← go_strict D fuel [] [] _ _ hn]; exact he
  have e3 := run_append D true e1 e2 (by simp)
  have e4 := run_append D false h2 he (by simp)
  exact ⟨n, f0 + fuel, os0 ++ os, by unfold NoRefill; rw [e3]; simp, e4⟩

theorem init_reachable (D : Dtors) (n : Nat) : Reachable D (Heap.init n) :=
  ⟨n, 1, [], by unfold NoRefill go; simp, by unfold run go; rfl⟩

/-! ## C33: weak references -/

/-- C33: weak references never dangle and never keep an object alive: in every reachable state a place that holds a
weak reference refers to an object that exists and that some other place holds a strong reference to. -/
theorem c33_weak_refers_to_strongly_held (D : Dtors) (h : Heap) (hr : Reachable D h) (l : Loc) (a : Nat)
    (hl : h.cell l = some (some ⟨a, true⟩)) : Alive h a ∧ ∃ k, k ≠ l ∧ h.cell k = some (some ⟨a, false⟩) := by
  have hal := (inv_consistent (reachable_inv hr).1).noDangling l _ hl
  obtain ⟨k, hk⟩ := (c32_alive_iff_referenced D h hr a).mp hal
  refine ⟨hal, k, ?_, hk⟩
  intro hkl
  rw [hkl, hl] at hk
  cases hk

theorem slotOf_of {h : Heap} {y : Ref} {i a : Nat} {c : Cell} (hy : h.val y = some a) (hc : h.cell (.slot a i) = some c) :
    h.slotOf y i = some (a, c) := by
  unfold Heap.slotOf; rw [hy]; simp only []; rw [hc]

theorem strong_two {v : View} {ph : List Nat} {b : Nat} {o : Info} {l k : Loc} (hv : Inv v ph none) (ho : v.info b = some o)
    (hl : v.cell l = some (some ⟨b, false⟩)) (hk : v.cell k = some (some ⟨b, false⟩)) (hne : k ≠ l) : o.count ≠ 1 := by
  obtain ⟨L, ⟨hL1, hL2⟩, hL3⟩ := hv.count b o ho
  have h1 := (hL2 l).mpr hl
  have h2 := (hL2 k).mpr hk
  intro hone
  have hlen : L.length ≤ 1 := by omega
  match L, hlen with
  | [], _ => cases h1
  | [x], _ =>
    simp only [List.mem_singleton] at h1 h2
    exact hne (h2.trans h1.symm)

theorem weaken_many {D : Dtors} {strict : Bool} {f : Nat} {h : Heap} {a i b : Nat} {k : Loc} {y : Ref}
    (hv : Inv h.view [] none) (hy : h.val y = some a) (hc : h.cell (.slot a i) = some (some ⟨b, false⟩))
    (hk : h.cell k = some (some ⟨b, false⟩)) (hne : k ≠ .slot a i) :
    ∃ h', go D strict (f + 2) [] (.op (.weaken y i)) h = .ok h' ∧
      h'.view = ((h.view.setCell (.slot a i) (some ⟨b, true⟩)).addCount b (-1)).setBack b (fun ls => ls ++ [.slot a i]) := by
  obtain ⟨o, ho⟩ := hv.live _ _ (vc hc)
  simp only at ho
  obtain ⟨ob, e1, hob, hobi⟩ := obj_ok ho
  have hcnt : ob.count = o.count := by rw [← hobi]; rfl
  have hne1 := strong_two hv ho (vc hc) (vc hk) hne
  obtain ⟨h1, e2, v2⟩ := write_ok (c := some ⟨b, true⟩) ⟨_, vc hc⟩
  obtain ⟨h2, e3, v3⟩ := addCount_ok (h := h1) (a := b) (d := -1) (by rw [v2]; exact ⟨o, ho⟩)
  obtain ⟨h3, e4, v4⟩ := setBackrefs_ok (h := h2) (a := b) (f := fun ls => ls ++ [Loc.slot a i])
    (by rw [v3, v2]; exact ⟨_, modInfo_of_some (v := h.view.setCell (.slot a i) (some ⟨b, true⟩)) (b := b) ho⟩)
  refine ⟨h3, ?_, by rw [v4, v3, v2]⟩
  have e5 : go D strict (f + 1) [] (.weaken (.slot a i)) h = .ok h3 := by
    unfold go
    rw [read_ok (vc hc)]
    simp only [Res.ok_bind, e1, hcnt, if_neg (show ¬ (false = true) by simp)]
    rw [if_neg hne1]
    simp only [e2, e3, e4, Res.ok_bind]
  unfold go
  rw [slotOf_of hy hc]
  exact e5

/-- C33: weakening a field while another strong reference to its object exists makes this field weak and changes no
other place. -/
theorem c33_weaken_effect (D : Dtors) (h : Heap) (hr : Reachable D h) (y : Ref) (a i b : Nat) (hy : h.val y = some a)
    (hc : h.cell (.slot a i) = some (some ⟨b, false⟩)) (k : Loc) (hne : k ≠ .slot a i)
    (hk : h.cell k = some (some ⟨b, false⟩)) :
    ∃ fuel h', run D fuel [.weaken y i] h = .ok h' ∧ Reachable D h' ∧ Alive h' b ∧ h'.isweak (.slot a i) = .ok true ∧
      ∀ m, h'.cell m = if m = .slot a i then some (some ⟨b, true⟩) else h.cell m := by
  obtain ⟨hv, hm⟩ := reachable_inv hr
  obtain ⟨h1, e1, v1⟩ := weaken_many (D := D) (strict := true) (f := 0) hv hy hc hk hne
  have e1' : run D 3 [.weaken y i] h = .ok h1 ∧ go D true 3 [] (.ops [.weaken y i]) h = .ok h1 := by
    have e2 : go D true 3 [] (.ops [.weaken y i]) h = .ok h1 := by
      unfold go; rw [e1]; simp only [Res.ok_bind]; unfold go; rfl
    exact ⟨by rw [run, go_strict D 3 [] [] _ _ (by rw [e2]; simp)]; exact e2, e2⟩
  have hcell : ∀ m, h1.cell m = if m = .slot a i then some (some ⟨b, true⟩) else h.cell m := by
    intro m
    show h1.view.cell m = _
    rw [v1]; rfl
  have hrr : Reachable D h1 := reachable_run hr (by unfold NoRefill; rw [e1'.2]; simp) e1'.1
  have hsl := hcell (.slot a i)
  rw [if_pos rfl] at hsl
  refine ⟨3, h1, e1'.1, hrr, ?_, ?_, hcell⟩
  · exact alive_of_cell (reachable_inv hrr).1 hsl
  · unfold Heap.isweak; rw [read_ok (vc hsl)]; rfl

/-- C33: unweakening a weak field makes it strong and changes no other place. -/
theorem c33_unweaken_effect (D : Dtors) (h : Heap) (hr : Reachable D h) (y : Ref) (a i b : Nat) (hy : h.val y = some a)
    (hc : h.cell (.slot a i) = some (some ⟨b, true⟩)) :
    ∃ fuel h', run D fuel [.unweaken y i] h = .ok h' ∧ Reachable D h' ∧ h'.isweak (.slot a i) = .ok false ∧
      ∀ m, h'.cell m = if m = .slot a i then some (some ⟨b, false⟩) else h.cell m := by
  obtain ⟨hv, hm⟩ := reachable_inv hr
  obtain ⟨h1, e1, v1⟩ := unweaken_ok hv (vc hc)
  have e2 : ∀ s, go D s 2 [] (.ops [.unweaken y i]) h = .ok h1 := by
    intro s
    have e3 : go D s 1 [] (.op (.unweaken y i)) h = .ok h1 := by
      unfold go
      rw [slotOf_of hy hc]
      exact e1
    unfold go; rw [e3]; simp only [Res.ok_bind]; unfold go; rfl
  have hcell : ∀ m, h1.cell m = if m = .slot a i then some (some ⟨b, false⟩) else h.cell m := by
    intro m
    show h1.view.cell m = _
    rw [v1]; rfl
  have hrr : Reachable D h1 := reachable_run hr (by unfold NoRefill; rw [e2]; simp) (e2 false)
  have hsl := hcell (.slot a i)
  rw [if_pos rfl] at hsl
  exact ⟨2, h1, e2 false, hrr, by unfold Heap.isweak; rw [read_ok (vc hsl)]; rfl, hcell⟩

/-- C33: `weaken` followed by `unweaken` restores every place. -/
theorem c33_weaken_unweaken_roundtrip (D : Dtors) (h : Heap) (hr : Reachable D h) (y : Ref) (a i b : Nat) (hy : h.val y = some a)
    (hc : h.cell (.slot a i) = some (some ⟨b, false⟩)) (k : Loc) (hne : k ≠ .slot a i)
    (hk : h.cell k = some (some ⟨b, false⟩)) :
    ∃ fuel h', run D fuel [.weaken y i, .unweaken y i] h = .ok h' ∧ Consistent h' ∧ ∀ m, h'.cell m = h.cell m := by
  obtain ⟨f1, h1, e1, hr1, _, _, hc1⟩ := c33_weaken_effect D h hr y a i b hy hc k hne hk
  have hy1 : h1.val y = some a := by
    rw [← hy]
    unfold Heap.val
    cases y with
    | var j => simp only [hc1]; rw [if_neg (by simp)]
    | mortal j => simp only [hc1]; rw [if_neg (by simp)]
  have hs1 := hc1 (.slot a i)
  rw [if_pos rfl] at hs1
  obtain ⟨f2, h2, e2, hr2, _, hc2⟩ := c33_unweaken_effect D h1 hr1 y a i b hy1 hs1
  refine ⟨f1 + f2, h2, run_append D false e1 e2 (by simp), inv_consistent (reachable_inv hr2).1, fun m => ?_⟩
  rw [hc2, hc1]
  split
  · rename_i hm; rw [hm]; exact hc.symm
  · rfl

/-- C33: weakening the only strong reference to an object destroys the object; the field becomes `undef` and the rest is
kept. -/
theorem c33_weaken_last_destroys (D : Dtors) (hD : NoDtors D) (h : Heap) (hr : Reachable D h) (y : Ref) (a i b : Nat)
    (hy : h.val y = some a) (hc : h.cell (.slot a i) = some (some ⟨b, false⟩))
    (hlast : ∀ k, k ≠ .slot a i → h.cell k ≠ some (some ⟨b, false⟩)) :
    ∃ fuel h', run D fuel [.weaken y i] h = .ok h' ∧ Consistent h' ∧ ¬ Alive h' b ∧ h'.cell (.slot a i) = some none ∧
      Kept h h' (.slot a i) := by
  obtain ⟨hv, hm⟩ := reachable_inv hr
  -- the code does what `$y->{i} = undef` does
  obtain ⟨o, ho⟩ := hv.live _ _ (vc hc)
  simp only at ho
  obtain ⟨ob, e1, hob, hobi⟩ := obj_ok ho
  have hcnt : ob.count = o.count := by rw [← hobi]; rfl
  have hone : ob.count = 1 := by
    obtain ⟨L, ⟨hL1, hL2⟩, hL3⟩ := hv.count b o ho
    have hall : ∀ x, x ∈ L → x = .slot a i := by
      intro x hx
      apply Classical.byContradiction
      intro hne
      exact hlast x hne ((hL2 x).mp hx)
    have hmem := (hL2 (.slot a i)).mpr hc
    have : L.length = 1 := by
      match L, hL1, hall, hmem with
      | [x], _, _, _ => rfl
      | x :: x' :: L, hnd, hall, _ =>
        have h1 := hall x (by simp)
        have h2 := hall x' (by simp)
        subst h1
        rw [← h2] at hnd
        simp at hnd
    rw [hcnt, hL3, this]; rfl
  obtain ⟨f, h1, e2, hv1, hm1, ht1, hk, _, hl, hsh⟩ := assign_effect hD (l := .slot a i) (o := none) hv (by simp) hm ⟨_, vc hc⟩ (by simp) (by simp)
  cases f with
  | zero => unfold go at e2; cases e2
  | succ f =>
    have hwr : ∃ h0, h.write (.slot a i) none = .ok h0 := by
      obtain ⟨h0, e, _⟩ := write_ok (c := none) ⟨_, vc hc⟩
      exact ⟨h0, e⟩
    obtain ⟨h0, e3⟩ := hwr
    have e4 : h.store (.slot a i) none = .ok (some b, h0) := by
      unfold Heap.store Heap.unweaken
      rw [read_ok (vc hc)]
      simp only [Res.ok_bind, Heap.incOpt, Option.map_none, Option.map_some, if_neg (show ¬ (false = true) by simp)]
      rw [e3]; rfl
    unfold go at e2
    rw [e4] at e2
    simp only [Res.ok_bind] at e2
    have e5 : go D true (f + 1) [] (.weaken (.slot a i)) h = .ok h1 := by
      unfold go
      rw [read_ok (vc hc)]
      simp only [Res.ok_bind, e1, if_neg (show ¬ (false = true) by simp)]
      rw [if_pos hone, e3]
      exact e2
    obtain ⟨k, hk1, hk2, hk3⟩ := ref_strong hv hm hy
    have hal : Alive h1 a := by
      rcases hk k _ (hk2 a i) hk1 (fun b j hb => absurd hb (hk2 b j)) hk3 with h2 | ⟨q, h2, _⟩
      · exact alive_of_cell hv1 h2
      · cases h2
    have hslot := hl (fun b j hb => by cases hb; exact hal)
    have hc1 := inv_consistent hv1
    refine ⟨f + 1 + 1 + 1, h1, run_one hD (by unfold go; rw [slotOf_of hy hc]; exact e5), hc1, ?_, hslot, hk⟩
    rintro ⟨o', ho'⟩
    obtain ⟨L, ⟨_, hmm⟩, _, hne⟩ := hc1.counts b o' ho'
    cases L with
    | nil => exact absurd rfl hne
    | cons l L =>
      have hl1 := (hmm l).mp List.mem_cons_self
      by_cases hlx : l = .slot a i
      · rw [hlx, hslot] at hl1; cases hl1
      · exact hlast l hlx (hsh l _ hlx hl1)

/-- C33: when the last strong reference goes away, every weak reference to the object (in objects that survive) reads
as `undef` afterwards. -/
theorem c33_weak_becomes_undef (D : Dtors) (hD : NoDtors D) (h : Heap) (hr : Reachable D h) (x a : Nat)
    (hx : h.cell (.var x) = some (some ⟨a, false⟩)) (hlast : ∀ l, l ≠ .var x → h.cell l ≠ some (some ⟨a, false⟩)) :
    ∃ fuel h', run D fuel [.clear x] h = .ok h' ∧
      ∀ b i, h.cell (.slot b i) = some (some ⟨a, true⟩) → Alive h' b → h'.cell (.slot b i) = some none := by
  obtain ⟨f, h1, e1, hc1, hd, hno, hk⟩ := c32_last_reference_frees D hD h hr x a hx hlast
  refine ⟨f, h1, e1, fun b i hbi hal => ?_⟩
  rcases hk (.slot b i) _ (by simp) hbi (fun b' j hb => by cases hb; exact hal) (by simp) with h2 | ⟨q, _, h2, _⟩
  · exact absurd h2 (hno _ _)
  · exact h2

/-! ## C34: mortal objects and scopes -/

/-- C34 (partial: `NoRefill`).  Whatever happens inside a scope, afterwards the mortal stack has the top it had before,
the entries below it are unchanged, everything above is released, and the counts are exact: exactly the references
pushed inside the scope are gone. -/
theorem c34_scope_partial (D : Dtors) (h : Heap) (hr : Reachable D h) (fuel : Nat) (body : List Op)
    (hn : NoRefill D fuel [.scope body] h) :
    run D fuel [.scope body] h = .limit ∨
    ∃ h', run D fuel [.scope body] h = .ok h' ∧ Consistent h' ∧ h'.top = h.top ∧
      (∀ i, i < h.top → h'.cell (.mortal i) = h.cell (.mortal i)) ∧
      ∀ i p, h.top ≤ i → h'.cell (.mortal i) ≠ some (some p) := by
  obtain ⟨hv, hm⟩ := reachable_inv hr
  rcases run_ops hv hm hn with h1 | ⟨h1, e1, hv1, hm1, hf1⟩
  · exact .inl h1
  · refine .inr ⟨h1, e1, inv_consistent hv1, ?_⟩
    have htop : h1.top = h.top := by
      have e2 : go D true fuel [] (.ops [.scope body]) h = .ok h1 := by rw [← go_strict D fuel [] [] _ _ hn]; exact e1
      cases fuel with
      | zero => unfold go at e2; cases e2
      | succ f =>
        unfold go at e2
        cases f with
        | zero => unfold go at e2; cases e2
        | succ f =>
          cases hq : go D true (f + 1) [] (.op (.scope body)) h with
          | ok h2 =>
            rw [hq] at e2
            simp only [Res.ok_bind] at e2
            unfold go at e2
            cases e2
            unfold go at hq
            rcases go_inv D f [] [] (.ops body) h (by simp) ⟨hv, hm⟩ with q | q | ⟨h3, e3, hv3, hm3, hf3⟩
            · rw [q] at hq; cases hq
            · rw [q] at hq; cases hq
            · rw [e3] at hq
              simp only [Res.ok_bind] at hq
              rcases go_inv D f [] [] (.leave h.top h.top) h3 (by simp)
                ⟨hv3, hm3, Nat.le_refl _, hf3.top, fun j h1 h2 => absurd h2 (by omega)⟩ with q | q | ⟨h4, e4, _, _, _, ht4⟩
              · rw [q] at hq; cases hq
              · rw [q] at hq; cases hq
              · rw [e4] at hq; cases hq; exact ht4
          | ub => rw [hq] at e2; cases e2
          | refill => rw [hq] at e2; cases e2
          | limit => rw [hq] at e2; cases e2
    refine ⟨htop, fun i hi => hf1.mort i hi, fun i p hi hc => ?_⟩
    have := hm1.2.1 i _ (by show h1.top ≤ i; omega) hc
    cases this

/-- C34 for classes without `DESTROY`: no further condition. -/
theorem c34_scope_no_destructors (D : Dtors) (hD : NoDtors D) (h : Heap) (hr : Reachable D h) (fuel : Nat) (body : List Op) :
    run D fuel [.scope body] h = .limit ∨
    ∃ h', run D fuel [.scope body] h = .ok h' ∧ Consistent h' ∧ h'.top = h.top ∧
      (∀ i, i < h.top → h'.cell (.mortal i) = h.cell (.mortal i)) ∧
      ∀ i p, h.top ≤ i → h'.cell (.mortal i) ≠ some (some p) :=
  c34_scope_partial D h hr fuel body (nodtors_norefill hD _ _ _)

/-- C34: an object that after a scope is referenced from no variable, no field and no earlier mortal entry has been
freed, and any other object is alive. -/
theorem c34_scope_frees (D : Dtors) (h h' : Heap) (hr : Reachable D h) (fuel : Nat) (body : List Op)
    (hn : NoRefill D fuel [.scope body] h) (he : run D fuel [.scope body] h = .ok h') (a : Nat) :
    Alive h' a ↔ ∃ l, (∀ i, l = .mortal i → i < h.top) ∧ h'.cell l = some (some ⟨a, false⟩) := by
  have hr' := reachable_run hr hn he
  rcases c34_scope_partial D h hr fuel body hn with q | ⟨h1, e1, _, _, _, hup⟩
  · rw [he] at q; cases q
  · rw [he] at e1; cases e1
    rw [c32_alive_iff_referenced D h' hr']
    constructor
    · rintro ⟨l, hl⟩
      refine ⟨l, fun i hi => ?_, hl⟩
      subst hi
      apply Classical.byContradiction
      intro hge
      exact hup i _ (Nat.le_of_not_lt hge) hl
    · rintro ⟨l, _, hl⟩; exact ⟨l, hl⟩

/-- C34: `push_mortal` adds one entry, which holds a strong reference, and keeps the entries below; the only way to fail
is a mortal stack with more than `INT_MAX` entries. -/
theorem c34_push (D : Dtors) (h : Heap) (hr : Reachable D h) (y : Ref) (a : Nat) (hy : h.val y = some a) (fuel : Nat)
    (hn : NoRefill D fuel [.pushMortal y] h) :
    run D fuel [.pushMortal y] h = .limit ∨
    ∃ h', run D fuel [.pushMortal y] h = .ok h' ∧ Consistent h' ∧ h'.top = h.top + 1 ∧
      h'.cell (.mortal h.top) = some (some ⟨a, false⟩) ∧ ∀ i, i < h.top → h'.cell (.mortal i) = h.cell (.mortal i) := by
  obtain ⟨hv, hm⟩ := reachable_inv hr
  rcases run_ops hv hm hn with h1 | ⟨h1, e1, hv1, hm1, hf1⟩
  · exact .inl h1
  · refine .inr ⟨h1, e1, inv_consistent hv1, ?_⟩
    have e2 : go D true fuel [] (.ops [.pushMortal y]) h = .ok h1 := by rw [← go_strict D fuel [] [] _ _ hn]; exact e1
    have key : h1.top = h.top + 1 ∧ h1.view.cell (.mortal h.top) = some (some ⟨a, false⟩) := by
      cases fuel with
      | zero => unfold go at e2; cases e2
      | succ f =>
        unfold go at e2
        cases f with
        | zero => unfold go at e2; cases e2
        | succ f =>
          cases hq : go D true (f + 1) [] (.op (.pushMortal y)) h with
          | ok h2 =>
            rw [hq] at e2
            simp only [Res.ok_bind] at e2
            unfold go at e2
            cases e2
            unfold go at hq
            rw [hy] at hq
            simp only [] at hq
            rcases go_inv D f [] [] (.push a) h (by simp) ⟨hv, hm, val_live hv hy⟩ with q | q | ⟨h3, e3, _, _, _, ht, hc⟩
            · rw [q] at hq; cases hq
            · rw [q] at hq; cases hq
            · rw [e3] at hq; cases hq; exact ⟨ht, hc⟩
          | ub => rw [hq] at e2; cases e2
          | refill => rw [hq] at e2; cases e2
          | limit => rw [hq] at e2; cases e2
    exact ⟨key.1, key.2, fun i hi => hf1.mort i hi⟩

/-! ### What a destructor can break -/

/-- Object 0: parent with two fields, object 1: child with a weak reference back to the parent.  The destructor of the
child (class 1) stores a new object into the first field of the parent. -/
def leakDtors : Dtors where
  hasDtor := fun c => c == 1
  body := fun _ h => [.getField 2 (.mortal (h.top - 1)) 0, .new 3 0 0, .setField (.var 2) 0 (.var 3), .clear 3, .clear 2]

def leakProg : List Op :=
  [.new 0 2 0, .new 1 1 1, .setField (.var 0) 1 (.var 1), .setField (.var 1) 0 (.var 0), .weaken (.var 1) 0, .clear 1,
   .clear 0]

/-- The destructor of the child stores a weak reference to an object held by variable 4 into the parent. -/
def uafDtors : Dtors where
  hasDtor := fun c => c == 1
  body := fun _ h => [.getField 2 (.mortal (h.top - 1)) 0, .setField (.var 2) 0 (.var 4), .weaken (.var 2) 0, .clear 2]

def isUb : Res α → Bool
  | .ub => true
  | _ => false

def okAnd (r : Res Heap) (p : Heap → Bool) : Bool :=
  match r with
  | .ok h => p h
  | _ => false

theorem okAnd_spec {r : Res Heap} {p : Heap → Bool} (h : okAnd r p = true) : ∃ x, r = .ok x ∧ p x = true := by
  cases r with
  | ok x => exact ⟨x, rfl, h⟩
  | ub => cases h
  | refill => cases h
  | limit => cases h

theorem leak_fresh (k : Nat) : okAnd (run leakDtors 40 leakProg (Heap.init 5)) (fun h => (h.objs (k + 3)).isNone) = true := by
  rfl

/-- C32 is false in general: after this program all variables are `undef`, the parent and the child are destroyed, and
the object created by the destructor is still allocated with count 1 although no variable, mortal entry or live object
refers to it. -/
theorem c32_destructor_leak_violated : ∃ h, run leakDtors 40 leakProg (Heap.init 5) = .ok h ∧
    Alive h 2 ∧ (∀ l, h.cell l ≠ some (some ⟨2, false⟩)) ∧ ¬ Consistent h := by
  have key : okAnd (run leakDtors 40 leakProg (Heap.init 5)) (fun h =>
      h.vars == [none, none, none, none, none] && h.mortals.all (· == none) && h.next == 3 && (h.objs 0).isNone && (h.objs 1).isNone
        && (h.objs 2).map (fun o => (o.count, o.slots)) == some (1, []) && (h.top == 0)) = true := by
    decide +kernel
  obtain ⟨h, e, hk⟩ := okAnd_spec key
  simp only [Bool.and_eq_true, beq_iff_eq, List.all_eq_true, Option.isNone_iff_eq_none] at hk
  obtain ⟨⟨⟨⟨⟨⟨k1, k2⟩, k3⟩, k4⟩, k5⟩, k6⟩, k7⟩ := hk
  cases ho : h.objs 2 with
  | none => rw [ho] at k6; cases k6
  | some o =>
    rw [ho] at k6
    have hno : ∀ l, h.cell l ≠ some (some ⟨2, false⟩) := by
      intro l hl
      cases l with
      | var i =>
        have hl' : h.vars[i]? = some (some ⟨2, false⟩) := hl
        rw [k1] at hl'
        match i with
        | 0 | 1 | 2 | 3 | 4 => simp at hl'
        | i + 5 => simp at hl'
      | mortal i =>
        have hl' : h.mortals[i]? = some (some ⟨2, false⟩) := hl
        have := k2 _ (List.mem_of_getElem? hl')
        cases this
      | slot b i =>
        have hl' : h.cell (.slot b i) = some (some ⟨2, false⟩) := hl
        have hb : h.objs b = none ∨ b = 2 := by
          match b with
          | 0 => exact .inl k4
          | 1 => exact .inl k5
          | 2 => exact .inr rfl
          | k + 3 =>
            have := leak_fresh k
            rw [e] at this
            exact .inl (Option.isNone_iff_eq_none.mp this)
        rcases hb with hb | rfl
        · unfold Heap.cell at hl'; simp only [hb] at hl'; cases hl'
        · unfold Heap.cell at hl'; simp only [ho] at hl'
          simp only [Option.map_some, Option.some.injEq, Prod.mk.injEq] at k6
          rw [k6.2] at hl'; simp at hl'
    refine ⟨h, e, ⟨o, ho⟩, hno, fun hc => ?_⟩
    obtain ⟨L, ⟨_, hm⟩, _, hne⟩ := hc.counts 2 o ho
    cases L with
    | nil => exact hne rfl
    | cons l L => exact hno l ((hm l).mp List.mem_cons_self)

/-- C32 and C33 are false in general: here the destructor leaves a back reference to freed memory, and dropping the last
reference to the other object afterwards writes through it. -/
theorem c32_destructor_use_after_free_violated :
    run uafDtors 40 (.new 4 0 0 :: leakProg ++ [.clear 4]) (Heap.init 5) = .ub := by
  have key : isUb (run uafDtors 40 (.new 4 0 0 :: leakProg ++ [.clear 4]) (Heap.init 5)) = true := by decide +kernel
  cases h : run uafDtors 40 (.new 4 0 0 :: leakProg ++ [.clear 4]) (Heap.init 5) with
  | ub => rfl
  | ok _ => rw [h] at key; cases key
  | refill => rw [h] at key; cases key
  | limit => rw [h] at key; cases key

/-! ## Non-vacuity -/

def noDtors : Dtors := ⟨fun _ => false, fun _ _ => []⟩

/-- A destructor that stores `$self` in a variable (resurrection) and clears a field of its own. -/
def resurrect : Dtors where
  hasDtor := fun c => c == 1
  body := fun _ h => [.move 3 (.mortal (h.top - 1)), .clearField (.mortal (h.top - 1)) 0]

def isRefill : Res α → Bool
  | .refill => true
  | _ => false

theorem norefill_of {D : Dtors} {f : Nat} {os : List Op} {h : Heap} (hb : isRefill (go D true f [] (.ops os) h) = false) :
    NoRefill D f os h := by
  intro hh; rw [hh] at hb; cases hb

/-- The hypothesis of `c32_counts_exact_partial` holds for a program whose destructor resurrects its object, and the run
ends normally with the object alive. -/
example : NoRefill resurrect 40 [.new 0 2 1, .new 1 0 0, .setField (.var 0) 0 (.var 1), .clear 0] (Heap.init 5) ∧
    okAnd (run resurrect 40 [.new 0 2 1, .new 1 0 0, .setField (.var 0) 0 (.var 1), .clear 0] (Heap.init 5))
      (fun h => (h.objs 0).isSome && (h.vars[3]? == some (some ⟨0, false⟩))) = true :=
  ⟨norefill_of (by decide +kernel), by decide +kernel⟩

/-- A parent (variable 0) with a child that refers back weakly, both also held by variables. -/
def family : List Op :=
  [.new 0 2 0, .new 1 1 1, .setField (.var 0) 1 (.var 1), .setField (.var 1) 0 (.var 0), .weaken (.var 1) 0]

/-- The state after `family` meets the hypotheses of the `c33` and `c32` theorems: it is reachable, the child's field 0 is
weak, the parent is held by variable 0 only, the parent's field 1 holds the child strongly and so does variable 1. -/
example : ∃ h, Reachable noDtors h ∧ h.cell (.slot 1 0) = some (some ⟨0, true⟩) ∧ h.cell (.var 0) = some (some ⟨0, false⟩) ∧
    h.cell (.slot 0 1) = some (some ⟨1, false⟩) ∧ h.cell (.var 1) = some (some ⟨1, false⟩) ∧ h.val (.var 0) = some 0 := by
  have key : okAnd (run noDtors 40 family (Heap.init 3)) (fun h => h.cell (.slot 1 0) == some (some ⟨0, true⟩) &&
      h.cell (.var 0) == some (some ⟨0, false⟩) && h.cell (.slot 0 1) == some (some ⟨1, false⟩) &&
      h.cell (.var 1) == some (some ⟨1, false⟩) && h.val (.var 0) == some 0) = true := by decide +kernel
  obtain ⟨h, e, hk⟩ := okAnd_spec key
  simp only [Bool.and_eq_true, beq_iff_eq] at hk
  exact ⟨h, ⟨3, 40, family, nodtors_norefill (fun _ => rfl) _ _ _, e⟩, hk.1.1.1.1, hk.1.1.1.2, hk.1.1.2, hk.1.2, hk.2⟩

/-- A scope with three mortal entries (the stack grows from 1 to 4) leaves nothing behind. -/
example : okAnd (run noDtors 60 [.scope [.new 0 0 0, .pushMortal (.var 0), .new 0 0 0, .pushMortal (.var 0), .new 0 0 0,
      .pushMortal (.var 0), .clear 0]] (Heap.init 1))
    (fun h => h.top == 0 && h.mortals == [none, none, none, none] && (h.objs 0).isNone && (h.objs 1).isNone && (h.objs 2).isNone) = true := by
  decide +kernel

end SPVM.Heap
