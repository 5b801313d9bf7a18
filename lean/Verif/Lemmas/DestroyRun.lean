import Verif.Lemmas.Destroy

/-!
# Lemmas for C84: runs
-/

namespace SPVM.Destroy

open SPVM.Heap

def GoodL (D : Dtors) (f : Nat) : Prop :=
  ∀ (c : Cmd) (h : Heap) (lg : List Ev) (h' : Heap) (lg' : List Ev), Ok D.hasDtor h lg →
    goL D f c h lg = .ok (h', lg') → PreL D.hasDtor h lg c → Ok D.hasDtor h' lg' ∧ Grow D.hasDtor c lg lg'

theorem zero_add_zero {d : Nat → Bool} {c c1 c2 : Cmd} (h : ∀ x, extra d x c = 0) (h1 : ∀ x, extra d x c1 = 0)
    (h2 : ∀ x, extra d x c2 = 0) : ∀ x, extra d x c = extra d x c1 + extra d x c2 := fun x => by rw [h, h1, h2]

/-- The rest of a command is another one. -/
theorem as {d : Nat → Bool} {c c1 : Cmd} {lg lg' : List Ev} (h : Grow d c1 lg lg') (h1 : ∀ x, extra d x c1 = 0)
    (h2 : ∀ x, extra d x c = 0) : Grow d c lg lg' := by
  obtain ⟨es, e, h⟩ := h
  exact ⟨es, e, fun a => by rw [h, h1, h2]⟩

theorem ok_pair {x : Heap} {y : List Ev} {h' : Heap} {lg' : List Ev} (e : (Res.ok (x, y) : Res (Heap × List Ev)) = .ok (h', lg')) :
    x = h' ∧ y = lg' := by cases e; exact ⟨rfl, rfl⟩

theorem good_release {D : Dtors} {f : Nat} (ih : GoodL D f) {a : Nat} {h h' : Heap} {lg lg' : List Ev} (hk : Ok D.hasDtor h lg)
    (e : goL D (f + 1) (.release a) h lg = .ok (h', lg')) : Ok D.hasDtor h' lg' ∧ Grow D.hasDtor (.release a) lg lg' := by
  unfold goL at e
  obtain ⟨o, e1, e⟩ := bind_ok e
  split at e
  · obtain ⟨h1, e2, e⟩ := bind_ok e
    obtain ⟨rfl, rfl⟩ := ok_pair e
    exact ⟨hk.skel (skel_addCount e2), .nil (fun _ => rfl)⟩
  · obtain ⟨⟨h1, lg1⟩, e2, e⟩ := bind_ok e
    obtain ⟨o', e3, e⟩ := bind_ok e
    obtain ⟨⟨h2, lg2⟩, e4, e⟩ := bind_ok e
    obtain ⟨h3, e5, e⟩ := bind_ok e
    obtain ⟨rfl, rfl⟩ := ok_pair e
    have ha := obj_some e1
    have hcr := hk.alive a o ha
    obtain ⟨k1, g1⟩ := ih _ _ _ _ _ hk e2 ⟨by rw [ha]; simp, hcr⟩
    obtain ⟨k2, g2⟩ := ih _ _ _ _ _ k1 e4 trivial
    have g12 : Grow D.hasDtor (.dtor a o.cls) lg lg2 := g1.seq g2 (fun x => by simp [extra])
    have hd : D.hasDtor o.cls = true → ∃ g, Ev.destroy a g ∈ lg2 := by
      intro hd
      obtain ⟨es, rfl, hes⟩ := g12
      have h1 := hes a
      simp only [extra, hd, and_self, if_true] at h1
      have h2 : 0 < es.countP (Ev.isDestroy a) := by omega
      obtain ⟨x, hx, hxd⟩ := List.countP_pos_iff.mp h2
      cases x with
      | destroy b g =>
        simp [Ev.isDestroy] at hxd
        subst hxd
        exact ⟨g, List.mem_append_right _ hx⟩
      | created _ _ => cases hxd
      | freed _ _ => cases hxd
      | kept _ _ => cases hxd
    refine ⟨k2.finish (g12.mem hcr) hd e5, ?_⟩
    obtain ⟨es, rfl, hes⟩ := g12
    refine ⟨_, List.append_assoc _ _ _, fun b => ?_⟩
    rw [List.countP_append, List.countP_append, hes b]
    cases (h3.objs a) <;> by_cases hb : a = b <;> cases hdc : D.hasDtor o.cls <;>
      simp [extra, Ev.isDestroy, ended, hb, hdc]

theorem good_dtor {D : Dtors} {f : Nat} (ih : GoodL D f) {a cls : Nat} {h h' : Heap} {lg lg' : List Ev} (hk : Ok D.hasDtor h lg)
    (hp : PreL D.hasDtor h lg (.dtor a cls)) (e : goL D (f + 1) (.dtor a cls) h lg = .ok (h', lg')) :
    Ok D.hasDtor h' lg' ∧ Grow D.hasDtor (.dtor a cls) lg lg' := by
  unfold goL at e
  by_cases hd : D.hasDtor cls = true
  · rw [if_pos hd] at e
    obtain ⟨⟨h1, lg1⟩, e2, e⟩ := bind_ok e
    obtain ⟨⟨h2, lg2⟩, e3, e⟩ := bind_ok e
    have k0 := hk.destroy (g := h) hp.2 hd hp.1
    obtain ⟨k1, g1⟩ := ih _ _ _ _ _ k0 e2 trivial
    obtain ⟨k2, g2⟩ := ih _ _ _ _ _ k1 e3 trivial
    obtain ⟨k3, g3⟩ := ih _ _ _ _ _ k2 e trivial
    refine ⟨k3, ?_⟩
    have g := (g1.seq g2 (c := .op (.clear 0)) (fun _ => rfl)).seq g3 (c := .op (.clear 0)) (fun _ => rfl)
    obtain ⟨es, rfl, hes⟩ := g
    refine ⟨_, List.append_assoc _ _ _, fun b => ?_⟩
    rw [List.countP_append, List.countP_append, hes b]
    by_cases hb : a = b <;> simp [extra, Ev.isDestroy, ended, hb, hd] <;> omega
  · rw [if_neg hd] at e
    obtain ⟨rfl, rfl⟩ := ok_pair e
    exact ⟨hk, .nil (fun x => by simp [extra, hd])⟩

theorem good_op {D : Dtors} {f : Nat} (ih : GoodL D f) {o : Op} {h h' : Heap} {lg lg' : List Ev} (hk : Ok D.hasDtor h lg)
    (e : goL D (f + 1) (.op o) h lg = .ok (h', lg')) : Ok D.hasDtor h' lg' ∧ Grow D.hasDtor (.op o) lg lg' := by
  have done : ∀ {x : Heap} {y : List Ev}, (Res.ok (x, y) : Res (Heap × List Ev)) = .ok (h', lg') → x = h → y = lg →
      Ok D.hasDtor h' lg' ∧ Grow D.hasDtor (.op o) lg lg' := by
    intro x y e hx hy
    obtain ⟨rfl, rfl⟩ := ok_pair e
    subst hx hy
    exact ⟨hk, .nil (fun _ => rfl)⟩
  have asg : ∀ {l : Loc} {v : Option Nat}, goL D f (.assign l v) h lg = .ok (h', lg') →
      Ok D.hasDtor h' lg' ∧ Grow D.hasDtor (.op o) lg lg' := by
    intro l v e
    obtain ⟨k, g⟩ := ih _ _ _ _ _ hk e trivial
    exact ⟨k, as g (fun _ => rfl) (fun _ => rfl)⟩
  cases o with
  | new x n cls =>
    unfold goL at e
    split at e
    · obtain ⟨k, g⟩ := ih _ _ _ _ _ (hk.created n cls) e trivial
      refine ⟨k, ?_⟩
      obtain ⟨es, rfl, hes⟩ := g
      refine ⟨_, List.append_assoc _ _ _, fun b => ?_⟩
      rw [List.countP_append, List.countP_append, hes b]
      simp [Ev.isDestroy, ended, extra]
    · exact done e rfl rfl
  | move x y => unfold goL at e; split at e; exact asg e; exact done e rfl rfl
  | clear x => unfold goL at e; split at e; exact asg e; exact done e rfl rfl
  | getField x y i =>
    unfold goL at e
    split at e
    · exact done e rfl rfl
    · split at e
      · exact asg e
      · exact done e rfl rfl
  | setField y i x => unfold goL at e; split at e; exact done e rfl rfl; exact asg e
  | clearField y i => unfold goL at e; split at e; exact done e rfl rfl; exact asg e
  | weaken y i =>
    unfold goL at e
    split at e
    · exact done e rfl rfl
    · obtain ⟨k, g⟩ := ih _ _ _ _ _ hk e trivial
      exact ⟨k, as g (fun _ => rfl) (fun _ => rfl)⟩
  | unweaken y i =>
    unfold goL at e
    split at e
    · exact done e rfl rfl
    · obtain ⟨h1, e1, e⟩ := bind_ok e
      obtain ⟨rfl, rfl⟩ := ok_pair e
      exact ⟨hk.skel (skel_unweaken e1), .nil (fun _ => rfl)⟩
  | pushMortal y =>
    unfold goL at e
    split at e
    · exact done e rfl rfl
    · obtain ⟨k, g⟩ := ih _ _ _ _ _ hk e trivial
      exact ⟨k, as g (fun _ => rfl) (fun _ => rfl)⟩
  | scope body =>
    unfold goL at e
    obtain ⟨⟨h1, lg1⟩, e1, e⟩ := bind_ok e
    obtain ⟨k1, g1⟩ := ih _ _ _ _ _ hk e1 trivial
    obtain ⟨k2, g2⟩ := ih _ _ _ _ _ k1 e trivial
    exact ⟨k2, g1.seq g2 (fun _ => rfl)⟩

theorem goL_ok (D : Dtors) : ∀ f, GoodL D f := by
  intro f
  induction f with
  | zero => intro c h lg h' lg' _ e _; unfold goL at e; cases e
  | succ f ih =>
    intro c h lg h' lg' hk e hp
    cases c with
    | assign l o =>
      unfold goL at e
      obtain ⟨⟨r, h1⟩, e1, e⟩ := bind_ok e
      have k1 := hk.skel (skel_store e1)
      cases r with
      | none =>
        obtain ⟨rfl, rfl⟩ := ok_pair e
        exact ⟨k1, .nil (fun _ => rfl)⟩
      | some a =>
        obtain ⟨k, g⟩ := ih _ _ _ _ _ k1 e trivial
        exact ⟨k, as g (fun _ => rfl) (fun _ => rfl)⟩
    | release a => exact good_release ih hk e
    | clearSlots a i n =>
      cases n with
      | zero =>
        unfold goL at e
        obtain ⟨rfl, rfl⟩ := ok_pair e
        exact ⟨hk, .nil (fun _ => rfl)⟩
      | succ n =>
        unfold goL at e
        obtain ⟨⟨h1, lg1⟩, e1, e⟩ := bind_ok e
        obtain ⟨k1, g1⟩ := ih _ _ _ _ _ hk e1 trivial
        obtain ⟨k2, g2⟩ := ih _ _ _ _ _ k1 e trivial
        exact ⟨k2, g1.seq g2 (fun _ => rfl)⟩
    | dtor a cls => exact good_dtor ih hk hp e
    | push a =>
      unfold goL at e
      obtain ⟨h1, e1, e⟩ := bind_ok e
      obtain ⟨⟨h2, lg2⟩, e2, e⟩ := bind_ok e
      obtain ⟨rfl, rfl⟩ := ok_pair e
      obtain ⟨k, g⟩ := ih _ _ _ _ _ (hk.skel (skel_grow e1)) e2 trivial
      exact ⟨k.skel ⟨rfl, fun _ => rfl⟩, as g (fun _ => rfl) (fun _ => rfl)⟩
    | leave k i =>
      unfold goL at e
      split at e
      · obtain ⟨⟨h1, lg1⟩, e1, e⟩ := bind_ok e
        obtain ⟨k1, g1⟩ := ih _ _ _ _ _ hk e1 trivial
        obtain ⟨k2, g2⟩ := ih _ _ _ _ _ k1 e trivial
        exact ⟨k2, g1.seq g2 (fun _ => rfl)⟩
      · obtain ⟨rfl, rfl⟩ := ok_pair e
        exact ⟨hk.skel ⟨rfl, fun _ => rfl⟩, .nil (fun _ => rfl)⟩
    | weaken l =>
      unfold goL at e
      obtain ⟨c, e1, e⟩ := bind_ok e
      cases c with
      | none =>
        obtain ⟨rfl, rfl⟩ := ok_pair e
        exact ⟨hk, .nil (fun _ => rfl)⟩
      | some p =>
        dsimp only at e
        split at e
        · obtain ⟨rfl, rfl⟩ := ok_pair e
          exact ⟨hk, .nil (fun _ => rfl)⟩
        · obtain ⟨o, e2, e⟩ := bind_ok e
          split at e
          · obtain ⟨h1, e3, e⟩ := bind_ok e
            obtain ⟨k, g⟩ := ih _ _ _ _ _ (hk.skel (skel_write e3)) e trivial
            exact ⟨k, as g (fun _ => rfl) (fun _ => rfl)⟩
          · obtain ⟨h1, e3, e⟩ := bind_ok e
            obtain ⟨h2, e4, e⟩ := bind_ok e
            obtain ⟨h3, e5, e⟩ := bind_ok e
            obtain ⟨rfl, rfl⟩ := ok_pair e
            exact ⟨hk.skel ((skel_write e3).trans ((skel_addCount e4).trans (skel_setBackrefs e5))), .nil (fun _ => rfl)⟩
    | op o => exact good_op ih hk e
    | ops os =>
      cases os with
      | nil =>
        unfold goL at e
        obtain ⟨rfl, rfl⟩ := ok_pair e
        exact ⟨hk, .nil (fun _ => rfl)⟩
      | cons o rest =>
        unfold goL at e
        obtain ⟨⟨h1, lg1⟩, e1, e⟩ := bind_ok e
        obtain ⟨k1, g1⟩ := ih _ _ _ _ _ hk e1 trivial
        obtain ⟨k2, g2⟩ := ih _ _ _ _ _ k1 e trivial
        exact ⟨k2, g1.seq g2 (fun _ => rfl)⟩

end SPVM.Destroy
