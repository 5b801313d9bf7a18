import Verif.Model.Destroy

/-!
# Lemmas for C84
-/

namespace SPVM.Destroy

open SPVM.Heap

theorem bind_ok {x : Res β} {f : β → Res γ} {r : γ} (h : (x >>= f) = .ok r) : ∃ a, x = .ok a ∧ f a = .ok r := by
  cases x with
  | ok a => exact ⟨a, rfl, h⟩
  | ub => cases h
  | refill => cases h
  | limit => cases h

/-- The same objects with the same classes. -/
structure Skel (h h' : Heap) : Prop where
  next : h'.next = h.next
  cls : ∀ a, (h'.objs a).map Obj.cls = (h.objs a).map Obj.cls

theorem Skel.refl (h : Heap) : Skel h h := ⟨rfl, fun _ => rfl⟩

theorem Skel.trans {a b c : Heap} (h1 : Skel a b) (h2 : Skel b c) : Skel a c :=
  ⟨h2.next.trans h1.next, fun x => (h2.cls x).trans (h1.cls x)⟩

theorem skel_setObj {h : Heap} {a : Nat} {o o' : Obj} (ho : h.objs a = some o) (hc : o'.cls = o.cls) :
    Skel h (h.setObj a (some o')) := by
  refine ⟨rfl, fun b => ?_⟩
  simp only [Heap.setObj]
  by_cases hb : b = a
  · subst hb; simp [ho, hc]
  · simp [hb]

theorem obj_some {h : Heap} {a : Nat} {o : Obj} (e : h.obj a = .ok o) : h.objs a = some o := by
  unfold Heap.obj at e
  split at e
  · cases e; assumption
  · cases e

theorem skel_write {h h' : Heap} {l : Loc} {c : Cell} (e : h.write l c = .ok h') : Skel h h' := by
  unfold Heap.write at e
  split at e
  · split at e
    · cases e; exact ⟨rfl, fun _ => rfl⟩
    · cases e
  · split at e
    · cases e; exact ⟨rfl, fun _ => rfl⟩
    · cases e
  · split at e
    · rename_i o ho
      split at e
      · cases e; exact skel_setObj ho rfl
      · cases e
    · cases e

theorem skel_addCount {h h' : Heap} {a : Nat} {d : Int} (e : h.addCount a d = .ok h') : Skel h h' := by
  obtain ⟨o, e1, e2⟩ := bind_ok e
  cases e2
  exact skel_setObj (obj_some e1) rfl

theorem skel_setBackrefs {h h' : Heap} {a : Nat} {f : List Loc → List Loc} (e : h.setBackrefs a f = .ok h') : Skel h h' := by
  obtain ⟨o, e1, e2⟩ := bind_ok e
  cases e2
  exact skel_setObj (obj_some e1) rfl

theorem skel_unweaken {h h' : Heap} {l : Loc} (e : h.unweaken l = .ok h') : Skel h h' := by
  obtain ⟨c, _, e2⟩ := bind_ok e
  split at e2
  · cases e2; exact .refl h
  · split at e2
    · obtain ⟨h1, e3, e4⟩ := bind_ok e2
      obtain ⟨h2, e5, e6⟩ := bind_ok e4
      exact (skel_write e3).trans ((skel_addCount e5).trans (skel_setBackrefs e6))
    · cases e2; exact .refl h

theorem skel_freeBackrefs : ∀ (ls : List Loc) {h h' : Heap}, h.freeBackrefs ls = .ok h' → Skel h h' := by
  intro ls
  induction ls with
  | nil => intro h h' e; cases e; exact .refl h
  | cons l ls ih =>
    intro h h' e
    obtain ⟨h1, e1, e2⟩ := bind_ok e
    exact (skel_write e1).trans (ih e2)

theorem skel_store {h h' : Heap} {l : Loc} {o r : Option Nat} (e : h.store l o = .ok (r, h')) : Skel h h' := by
  obtain ⟨c, _, e⟩ := bind_ok e
  obtain ⟨h1, e1, e⟩ := bind_ok e
  obtain ⟨h2, e2, e⟩ := bind_ok e
  obtain ⟨h3, e3, e⟩ := bind_ok e
  cases e
  refine (skel_unweaken e1).trans (Skel.trans ?_ (skel_write e3))
  cases o with
  | none => cases e2; exact .refl h1
  | some a => exact skel_addCount e2

theorem skel_grow {h h' : Heap} (e : h.growMortals = .ok h') : Skel h h' := by
  unfold Heap.growMortals at e
  split at e
  · split at e
    · cases e; exact ⟨rfl, fun _ => rfl⟩
    · cases e
  · cases e; exact .refl h

/-- The end of a destruction: the object is freed or kept, the others stay. -/
theorem finish_cases {h h' : Heap} {a : Nat} (e : h.finish a = .ok h') :
    h'.next = h.next ∧ (∀ b, b ≠ a → (h'.objs b).map Obj.cls = (h.objs b).map Obj.cls) ∧
    (∃ o, h.objs a = some o) ∧ (h'.objs a = none ∨ (h'.objs a).map Obj.cls = (h.objs a).map Obj.cls) := by
  obtain ⟨h1, e1, e⟩ := bind_ok e
  obtain ⟨o, e2, e⟩ := bind_ok e
  have s1 := skel_addCount e1
  have halive : ∃ o, h.objs a = some o := by
    obtain ⟨o, e3, _⟩ := bind_ok e1
    exact ⟨o, obj_some e3⟩
  split at e
  · obtain ⟨h2, e3, e⟩ := bind_ok e
    cases e
    have s := s1.trans (skel_freeBackrefs _ e3)
    refine ⟨s.next, fun b hb => ?_, halive, .inl ?_⟩
    · simp only [Heap.setObj, hb, if_false]
      exact s.cls b
    · simp [Heap.setObj]
  · cases e
    exact ⟨s1.next, fun b _ => s1.cls b, halive, .inr (s1.cls a)⟩

/-! ## Logs -/

theorem split_last {lg l1 l2 : List Ev} {e x : Ev} (h : lg ++ [e] = l1 ++ x :: l2) :
    (l1 = lg ∧ x = e ∧ l2 = []) ∨ ∃ l2', l2 = l2' ++ [e] ∧ lg = l1 ++ x :: l2' := by
  rcases List.eq_nil_or_concat l2 with rfl | ⟨l2', y, rfl⟩
  · left
    have := List.append_inj' h rfl
    exact ⟨this.1.symm, by simpa using this.2.symm, rfl⟩
  · right
    rw [List.concat_eq_append] at h ⊢
    have h' : lg ++ [e] = (l1 ++ x :: l2') ++ [y] := by simpa using h
    have := List.append_inj' h' rfl
    exact ⟨l2', by simp at this; rw [this.2], this.1⟩

theorem chrono_append {d : Nat → Bool} {lg : List Ev} {e : Ev} (hc : Chrono d lg) (hf : Fits d lg e) : Chrono d (lg ++ [e]) := by
  intro l1 x l2 h
  rcases split_last h with ⟨rfl, rfl, _⟩ | ⟨l2', _, h'⟩
  · exact hf
  · exact hc _ _ _ h'

/-- The end of the destruction of an object whose class has a destructor. -/
def ended (d : Nat → Bool) (a : Nat) : Ev → Bool
  | .freed b c => b == a && d c
  | .kept b c => b == a && d c
  | _ => false

/-- The log describes the heap. -/
structure Ok (d : Nat → Bool) (h : Heap) (lg : List Ev) : Prop where
  chrono : Chrono d lg
  fresh : ∀ a, h.next ≤ a → h.objs a = none
  new : ∀ a c, Ev.created a c ∈ lg → a < h.next
  alive : ∀ a o, h.objs a = some o → Ev.created a o.cls ∈ lg
  uniq : ∀ a c c', Ev.created a c ∈ lg → Ev.created a c' ∈ lg → c = c'
  cls : ∀ a c, Ev.freed a c ∈ lg ∨ Ev.kept a c ∈ lg → Ev.created a c ∈ lg
  dead : ∀ a c, Ev.freed a c ∈ lg → h.objs a = none
  gone : ∀ a c, Ev.created a c ∈ lg → h.objs a = none → Ev.freed a c ∈ lg

theorem map_none {o o' : Option Obj} (h : o'.map Obj.cls = o.map Obj.cls) : o' = none ↔ o = none := by
  cases o <;> cases o' <;> simp_all

theorem Ok.skel {d : Nat → Bool} {h h' : Heap} {lg : List Ev} (hk : Ok d h lg) (s : Skel h h') : Ok d h' lg where
  chrono := hk.chrono
  fresh := fun a ha => (map_none (s.cls a)).mpr (hk.fresh a (by rw [s.next] at ha; exact ha))
  new := fun a c hc => by rw [s.next]; exact hk.new a c hc
  alive := fun a o ho => by
    have := s.cls a
    rw [ho] at this
    cases ho' : h.objs a with
    | none => simp [ho'] at this
    | some o' =>
      simp [ho'] at this
      rw [this]
      exact hk.alive a o' ho'
  uniq := hk.uniq
  cls := hk.cls
  dead := fun a c hc => (map_none (s.cls a)).mpr (hk.dead a c hc)
  gone := fun a c hc hn => hk.gone a c hc ((map_none (s.cls a)).mp hn)

theorem Ok.destroy {d : Nat → Bool} {h : Heap} {lg : List Ev} (hk : Ok d h lg) {a c : Nat} {g : Heap} (hc : Ev.created a c ∈ lg)
    (hd : d c = true) (ha : h.objs a ≠ none) : Ok d h (lg ++ [.destroy a g]) where
  chrono := chrono_append hk.chrono ⟨fun c' h' => ha (hk.dead a c' h'), c, hc, hd⟩
  fresh := hk.fresh
  new := fun b c' h' => hk.new b c' (by simpa using h')
  alive := fun b o h' => by simpa using hk.alive b o h'
  uniq := fun b c1 c2 h1 h2 => hk.uniq b c1 c2 (by simpa using h1) (by simpa using h2)
  cls := fun b c' h' => by simpa using hk.cls b c' (by simpa using h')
  dead := fun b c' h' => hk.dead b c' (by simpa using h')
  gone := fun b c' h' hn => by simpa using hk.gone b c' (by simpa using h') hn

theorem Ok.created {d : Nat → Bool} {h : Heap} {lg : List Ev} (hk : Ok d h lg) (n c : Nat) :
    Ok d (h.alloc n c) (lg ++ [.created h.next c]) where
  chrono := chrono_append hk.chrono
    ⟨fun c' h' => absurd (hk.new _ _ (hk.cls _ _ (.inl h'))) (Nat.lt_irrefl _), fun c' h' => absurd (hk.new _ _ h') (Nat.lt_irrefl _)⟩
  fresh := fun a ha => by
    simp only [Heap.alloc, Heap.setObj] at ha ⊢
    rw [if_neg (by omega)]
    exact hk.fresh a (by omega)
  new := fun b c' h' => by
    simp only [Heap.alloc]
    simp at h'
    rcases h' with h' | ⟨rfl, rfl⟩
    · have := hk.new b c' h'; omega
    · omega
  alive := fun b o h' => by
    simp only [Heap.alloc, Heap.setObj] at h'
    by_cases hb : b = h.next
    · subst hb
      simp at h'
      subst h'
      simp
    · simp only [hb, if_false] at h'
      simp [hk.alive b o h']
  uniq := fun b c1 c2 h1 h2 => by
    simp at h1 h2
    rcases h1 with h1 | ⟨rfl, rfl⟩ <;> rcases h2 with h2 | ⟨e2, rfl⟩
    · exact hk.uniq b c1 c2 h1 h2
    · exact absurd (hk.new _ _ h1) (by omega)
    · exact absurd (hk.new _ _ h2) (Nat.lt_irrefl _)
    · rfl
  cls := fun b c' h' => by
    have := hk.cls b c' (by simpa using h')
    simp [this]
  dead := fun b c' h' => by
    have h2 : Ev.freed b c' ∈ lg := by simpa using h'
    have := hk.new _ _ (hk.cls _ _ (.inl h2))
    simp only [Heap.alloc, Heap.setObj]
    rw [if_neg (by omega)]
    exact hk.dead b c' h2
  gone := fun b c' h' hn => by
    simp only [Heap.alloc, Heap.setObj] at hn
    by_cases hb : b = h.next
    · simp [hb] at hn
    · rw [if_neg hb] at hn
      simp [hb] at h' ⊢
      exact hk.gone b c' h' hn

/-- The end of the destruction of `a`. -/
theorem Ok.finish {d : Nat → Bool} {h h' : Heap} {lg : List Ev} (hk : Ok d h lg) {a c : Nat} (hc : Ev.created a c ∈ lg)
    (hd : d c = true → ∃ g, Ev.destroy a g ∈ lg) (e : h.finish a = .ok h') :
    Ok d h' (lg ++ [if (h'.objs a).isSome then .kept a c else .freed a c]) := by
  obtain ⟨hn, ho, ⟨o, ha⟩, hcase⟩ := finish_cases e
  have hnf : ∀ c', Ev.freed a c' ∉ lg := fun c' h1 => by
    have := hk.dead a c' h1
    rw [ha] at this
    cases this
  have hone : ∀ b, h.objs b = none → h'.objs b = none := fun b hb => by
    by_cases hba : b = a
    · subst hba; rw [ha] at hb; cases hb
    · exact (map_none (ho b hba)).mpr hb
  cases hs : h'.objs a with
  | some o' =>
    have hcl : (h'.objs a).map Obj.cls = (h.objs a).map Obj.cls := by
      rcases hcase with h1 | h1
      · rw [hs] at h1; cases h1
      · exact h1
    have hk' := hk.skel (h' := h') ⟨hn, fun b => by
      by_cases hba : b = a
      · rw [hba]; exact hcl
      · exact ho b hba⟩
    simp only [Option.isSome_some, if_true]
    exact {
      chrono := chrono_append hk.chrono ⟨hnf, hc, hd⟩
      fresh := hk'.fresh
      new := fun b c' h1 => hk'.new b c' (by simpa using h1)
      alive := fun b o h1 => by simpa using hk'.alive b o h1
      uniq := fun b c1 c2 h1 h2 => hk'.uniq b c1 c2 (by simpa using h1) (by simpa using h2)
      cls := fun b c' h1 => by
        simp at h1
        rcases h1 with h1 | h1 | ⟨rfl, rfl⟩
        · simp [hk.cls b c' (.inl h1)]
        · simp [hk.cls b c' (.inr h1)]
        · simp [hc]
      dead := fun b c' h1 => hk'.dead b c' (by simpa using h1)
      gone := fun b c' h1 h2 => by simpa using hk'.gone b c' (by simpa using h1) h2 }
  | none =>
    simp only [Option.isSome_none, Bool.false_eq_true, if_false]
    exact {
      chrono := chrono_append hk.chrono ⟨hnf, hc, hd⟩
      fresh := fun b hb => hone b (hk.fresh b (by omega))
      new := fun b c' h1 => by
        have := hk.new b c' (by simpa using h1)
        omega
      alive := fun b o h1 => by
        have hba : b ≠ a := fun e => by rw [e, hs] at h1; cases h1
        have h2 := ho b hba
        rw [h1] at h2
        cases h3 : h.objs b with
        | none => simp [h3] at h2
        | some o2 =>
          simp [h3] at h2
          have := hk.alive b o2 h3
          simp [h2, this]
      uniq := fun b c1 c2 h1 h2 => hk.uniq b c1 c2 (by simpa using h1) (by simpa using h2)
      cls := fun b c' h1 => by
        simp at h1
        rcases h1 with (h1 | ⟨rfl, rfl⟩) | h1
        · simp [hk.cls b c' (.inl h1)]
        · simp [hc]
        · simp [hk.cls b c' (.inr h1)]
      dead := fun b c' h1 => by
        simp at h1
        rcases h1 with h1 | ⟨rfl, _⟩
        · exact hone b (hk.dead b c' h1)
        · exact hs
      gone := fun b c' h1 h2 => by
        have h1' : Ev.created b c' ∈ lg := by simpa using h1
        by_cases hba : b = a
        · subst hba
          simp [hk.uniq b c' c h1' hc]
        · have := hk.gone b c' h1' ((map_none (ho b hba)).mp h2)
          simp [this] }

/-! ## The run -/

/-- What is needed to start a command. -/
def PreL (d : Nat → Bool) (h : Heap) (lg : List Ev) : Cmd → Prop
  | .dtor a cls => h.objs a ≠ none ∧ Ev.created a cls ∈ lg
  | _ => True

/-- The calls of destructors that are not finished by the command itself. -/
def extra (d : Nat → Bool) (a : Nat) : Cmd → Nat
  | .dtor b cls => if b = a ∧ d cls = true then 1 else 0
  | _ => 0

/-- What a command adds to the log. -/
def Grow (d : Nat → Bool) (c : Cmd) (lg lg' : List Ev) : Prop :=
  ∃ es, lg' = lg ++ es ∧ ∀ a, es.countP (Ev.isDestroy a) = es.countP (ended d a) + extra d a c

theorem Grow.nil {d : Nat → Bool} {c : Cmd} {lg : List Ev} (h : ∀ a, extra d a c = 0) : Grow d c lg lg :=
  ⟨[], by simp, fun a => by simp [h]⟩

theorem Grow.seq {d : Nat → Bool} {c c1 c2 : Cmd} {a b e : List Ev} (h1 : Grow d c1 a b) (h2 : Grow d c2 b e)
    (hx : ∀ x, extra d x c = extra d x c1 + extra d x c2) : Grow d c a e := by
  obtain ⟨es, rfl, h1⟩ := h1
  obtain ⟨fs, rfl, h2⟩ := h2
  exact ⟨es ++ fs, by simp, fun x => by simp only [List.countP_append, h1, h2, hx]; omega⟩

theorem Grow.mem {d : Nat → Bool} {c : Cmd} {a b : List Ev} (h : Grow d c a b) {e : Ev} (he : e ∈ a) : e ∈ b := by
  obtain ⟨es, rfl, _⟩ := h
  exact List.mem_append_left _ he

end SPVM.Destroy
