import Verif.Props.Destroy
import Verif.Lemmas.HeapRun

/-!
# Lemmas for C84: destructors are called for objects nothing refers to
-/

namespace SPVM.Destroy

open SPVM.Heap

theorem settled_nil : Settled [] := fun b a h l e => by simp at e

theorem Settled.append {l1 l2 : List Ev} (h1 : Settled l1) (h2 : Settled l2) : Settled (l1 ++ l2) := by
  intro b a h l e
  rcases List.append_eq_append_iff.mp e with ⟨m, rfl, e2⟩ | ⟨m, rfl, e2⟩
  · exact h2 m a h l e2
  · cases m with
    | nil =>
      simp at e2
      exact h2 [] a h l (by simp [e2])
    | cons x m =>
      simp at e2
      obtain ⟨rfl, rfl⟩ := e2
      obtain ⟨d, x, r, rfl, h3, h4⟩ := h1 b a h m rfl
      exact ⟨d, x, r ++ l2, by simp, h3, h4⟩

theorem settled_other {e : Ev} (h : ∀ a g, e ≠ .destroy a g) : Settled [e] := by
  intro b a g l eq
  cases b with
  | nil => simp at eq; exact absurd eq.1 (h a g)
  | cons _ _ => simp at eq

/-- One call, with everything that happens in it. -/
theorem settled_call {a : Nat} {h : Heap} {es : List Ev} {e : Ev} (hs : Settled es) (hn : ∀ g, Ev.destroy a g ∉ es)
    (he : Ev.isFreed a e = true ∨ Ev.isKept a e = true) : Settled (.destroy a h :: es ++ [e]) := by
  have hne : ∀ b g, e ≠ .destroy b g := by
    rintro b g rfl
    simp [Ev.isFreed, Ev.isKept] at he
  intro b x g l eq
  cases b with
  | nil =>
    simp at eq
    obtain ⟨⟨rfl, rfl⟩, rfl⟩ := eq
    exact ⟨es, e, [], rfl, he, hn⟩
  | cons y b =>
    simp at eq
    exact (hs.append (settled_other hne)) b x g l eq.2

/-- The new calls of destructors are for objects without strong references, none of which is being destroyed already. -/
def Quiet (ph : List Nat) (lg lg' : List Ev) : Prop :=
  ∃ es, lg' = lg ++ es ∧ Settled es ∧
    ∀ a g, .destroy a g ∈ es → a ∉ ph ∧ ∀ l, g.cell l ≠ some (some ⟨a, false⟩)

theorem Quiet.refl (ph : List Nat) (lg : List Ev) : Quiet ph lg lg := ⟨[], by simp, settled_nil, by simp⟩

theorem Quiet.trans {ph : List Nat} {a b c : List Ev} (h1 : Quiet ph a b) (h2 : Quiet ph b c) : Quiet ph a c := by
  obtain ⟨e1, rfl, s1, q1⟩ := h1
  obtain ⟨e2, rfl, s2, q2⟩ := h2
  refine ⟨e1 ++ e2, by simp, s1.append s2, fun x g hx => ?_⟩
  rcases List.mem_append.mp hx with hx | hx
  · exact q1 x g hx
  · exact q2 x g hx

theorem Quiet.other {ph : List Nat} {lg : List Ev} {e : Ev} (h : ∀ a g, e ≠ .destroy a g) : Quiet ph lg (lg ++ [e]) :=
  ⟨[e], rfl, settled_other h, fun a g hx => by simp at hx; exact absurd hx.symm (h a g)⟩

theorem Quiet.fewer {ph : List Nat} {a : Nat} {x y : List Ev} (h : Quiet (a :: ph) x y) : Quiet ph x y := by
  obtain ⟨es, e, s, q⟩ := h
  exact ⟨es, e, s, fun b g hb => ⟨fun hin => (q b g hb).1 (List.mem_cons_of_mem _ hin), (q b g hb).2⟩⟩

/-- The log the calls of a command are added to. -/
def base (D : Dtors) (h : Heap) (lg : List Ev) : Cmd → List Ev
  | .dtor a cls => if D.hasDtor cls = true then lg ++ [.destroy a h] else lg
  | _ => lg

def GoodU (D : Dtors) (f : Nat) : Prop :=
  ∀ (dying ph : List Nat) (c : Cmd) (h : Heap) (lg : List Ev) (h' : Heap) (lg' : List Ev), (∀ b, b ∈ dying → b ∈ ph) →
    go D true f dying c h = .ok h' → goL D f c h lg = .ok (h', lg') → Pre dying ph h c → Quiet ph (base D h lg c) lg'

theorem lock {D : Dtors} {f : Nat} {dying : List Nat} {c : Cmd} {h : Heap} {lg : List Ev} {F : Heap → Res β}
    {G : Heap × List Ev → Res γ} {r : β} {r' : γ} (e1 : (go D true f dying c h >>= F) = .ok r)
    (e2 : (goL D f c h lg >>= G) = .ok r') :
    ∃ h1 lg1, go D true f dying c h = .ok h1 ∧ goL D f c h lg = .ok (h1, lg1) ∧ F h1 = .ok r ∧ G (h1, lg1) = .ok r' := by
  obtain ⟨h1, a1, b1⟩ := bind_ok e1
  obtain ⟨⟨h2, lg1⟩, a2, b2⟩ := bind_ok e2
  have hs := go_strict D f dying dying c h (by rw [a1]; simp)
  rw [goL_go D f dying c h lg, a2, a1] at hs
  have hh : h2 = h1 := by
    change Res.ok h2 = Res.ok h1 at hs
    exact Res.ok.inj hs
  subst hh
  exact ⟨h2, lg1, a1, a2, b1, b2⟩

theorem inv_of {D : Dtors} {f : Nat} {dying ph : List Nat} {c : Cmd} {h h' : Heap} (hd : ∀ b, b ∈ dying → b ∈ ph)
    (hp : Pre dying ph h c) (e : go D true f dying c h = .ok h') : Inv h'.view ph none ∧ Mort h'.view ∧ Post dying h h' c := by
  rcases go_inv D f dying ph c h hd hp with h1 | h1 | ⟨h1, e1, i⟩
  · rw [e] at h1; cases h1
  · rw [e] at h1; cases h1
  · rw [e] at e1; cases e1; exact i

theorem quiet_release {D : Dtors} {f : Nat} (ih : GoodU D f) {dying ph : List Nat} {a : Nat} {h h' : Heap} {lg lg' : List Ev}
    (hd : ∀ b, b ∈ dying → b ∈ ph) (e1 : go D true (f + 1) dying (.release a) h = .ok h')
    (e2 : goL D (f + 1) (.release a) h lg = .ok (h', lg')) (hp : Pre dying ph h (.release a)) : Quiet ph lg lg' := by
  obtain ⟨hv, hm⟩ := hp
  obtain ⟨o, ho⟩ := hv.phl a List.mem_cons_self
  obtain ⟨ob, eo, hob, hobi⟩ := obj_ok ho
  have hcnt : ob.count = o.count := by rw [← hobi]; rfl
  unfold go at e1
  unfold goL at e2
  rw [eo] at e1 e2
  simp only [Res.ok_bind, hcnt] at e1 e2
  by_cases hc : o.count > 1
  · rw [if_pos hc] at e1 e2
    obtain ⟨h1, _, e3⟩ := bind_ok e2
    obtain ⟨_, rfl⟩ := ok_pair e3
    exact .refl _ _
  · rw [if_neg hc] at e1 e2
    obtain ⟨L, hL, hLc⟩ := hv.count a o ho
    rw [count_cons, if_pos rfl] at hLc
    have hL0 : L.length = 0 := by omega
    have hnil : L = [] := List.length_eq_zero_iff.mp hL0
    have hph : a ∉ ph := by
      intro hin
      have := List.count_pos_iff.mpr hin
      omega
    have hun : ∀ l, h.cell l ≠ some (some ⟨a, false⟩) := by
      intro l hl
      have := (hL.2 l).mpr hl
      rw [hnil] at this
      cases this
    obtain ⟨h1, lg1, a1, b1, e1, e2⟩ := lock e1 e2
    have hd1 : ∀ b, b ∈ dying → b ∈ a :: ph := fun b hb => List.mem_cons_of_mem _ (hd b hb)
    have hp1 : Pre dying (a :: ph) h (.dtor a ob.cls) := ⟨hv, hm, List.mem_cons_self⟩
    have q1 := ih _ _ _ _ _ _ _ hd1 a1 b1 hp1
    obtain ⟨hv2, hm2, hf2, ht2⟩ := inv_of hd1 hp1 a1
    obtain ⟨o2, ho2⟩ := hv2.phl a List.mem_cons_self
    obtain ⟨ob2, e3, hob2, hobi2⟩ := obj_ok ho2
    simp only [e3, Res.ok_bind] at e1 e2
    obtain ⟨h2, lg2, a2, b2, e1, e2⟩ := lock e1 e2
    have hd2 : ∀ b, b ∈ a :: dying → b ∈ a :: ph := fun b hb => by
      rcases List.mem_cons.mp hb with rfl | hb
      · exact List.mem_cons_self
      · exact List.mem_cons_of_mem _ (hd b hb)
    have q2 := ih _ _ _ _ _ _ _ hd2 a2 b2
      ⟨hv2, hm2, List.mem_cons_self, ⟨o2, ho2, by rw [← hobi2]; simp [Obj.info]⟩, by omega⟩
    obtain ⟨h3, _, e4⟩ := bind_ok e2
    obtain ⟨rfl, rfl⟩ := ok_pair e4
    have q := q1.trans q2
    have hend : ∀ b g, (if (h3.objs a).isSome = true then Ev.kept a ob.cls else Ev.freed a ob.cls) ≠ .destroy b g := by
      intro b g
      split <;> exact fun h => by cases h
    simp only [base] at q
    by_cases hdt : D.hasDtor ob.cls = true
    · rw [if_pos hdt] at q
      obtain ⟨es, rfl, s, q⟩ := q
      refine ⟨.destroy a h :: es ++ [_], by simp; rfl, settled_call s (fun g hg => (q a g hg).1 List.mem_cons_self) ?_, ?_⟩
      · split <;> simp [Ev.isFreed, Ev.isKept]
      · intro b g hb
        simp only [List.cons_append, List.mem_cons, List.mem_append, List.not_mem_nil, or_false] at hb
        rcases hb with hb | hb | hb
        · cases hb
          exact ⟨hph, hun⟩
        · exact ⟨fun hin => (q b g hb).1 (List.mem_cons_of_mem _ hin), (q b g hb).2⟩
        · exact absurd hb.symm (hend b g)
    · rw [if_neg hdt] at q
      exact q.fewer.trans (.other hend)

theorem quiet_dtor {D : Dtors} {f : Nat} (ih : GoodU D f) {dying ph : List Nat} {a cls : Nat} {h h' : Heap} {lg lg' : List Ev}
    (hd : ∀ b, b ∈ dying → b ∈ ph) (e1 : go D true (f + 1) dying (.dtor a cls) h = .ok h')
    (e2 : goL D (f + 1) (.dtor a cls) h lg = .ok (h', lg')) (hp : Pre dying ph h (.dtor a cls)) :
    Quiet ph (base D h lg (.dtor a cls)) lg' := by
  simp only [base]
  obtain ⟨hv, hm, ha⟩ := hp
  unfold go at e1
  unfold goL at e2
  by_cases hdt : D.hasDtor cls = true
  · rw [if_pos hdt] at e1 e2 ⊢
    obtain ⟨h1, lg1, a1, b1, e1, e2⟩ := lock e1 e2
    have hp1 : Pre dying ph h (.push a) := ⟨hv, hm, hv.phl a ha⟩
    have q1 := ih _ _ _ _ _ _ _ hd a1 b1 hp1
    obtain ⟨hv1, hm1, hf1, ht1, _⟩ := inv_of hd hp1 a1
    obtain ⟨h2, lg2, a2, b2, e1, e2⟩ := lock e1 e2
    have hp2 : Pre dying ph h1 (.ops (D.body a h1)) := ⟨hv1, hm1⟩
    have q2 := ih _ _ _ _ _ _ _ hd a2 b2 hp2
    obtain ⟨hv2, hm2, hf2⟩ := inv_of hd hp2 a2
    have htop2 : h1.top ≤ h2.top := hf2.top
    have q3 := ih _ _ _ _ _ _ _ hd e1 e2 ⟨hv2, hm2, Nat.le_refl _, by omega, by omega⟩
    exact (q1.trans q2).trans q3
  · rw [if_neg hdt] at e1 e2 ⊢
    obtain ⟨_, rfl⟩ := ok_pair e2
    exact .refl _ _

theorem quiet_op {D : Dtors} {f : Nat} (ih : GoodU D f) {dying ph : List Nat} {o : Op} {h h' : Heap} {lg lg' : List Ev}
    (hd : ∀ b, b ∈ dying → b ∈ ph) (e1 : go D true (f + 1) dying (.op o) h = .ok h')
    (e2 : goL D (f + 1) (.op o) h lg = .ok (h', lg')) (hp : Pre dying ph h (.op o)) : Quiet ph lg lg' := by
  obtain ⟨hv, hm⟩ := hp
  have hskip : ∀ {x : Heap}, (Res.ok (x, lg) : Res (Heap × List Ev)) = .ok (h', lg') → Quiet ph lg lg' := by
    intro x e
    obtain ⟨_, rfl⟩ := ok_pair e
    exact .refl _ _
  have hvar : ∀ {x : Nat} {v : Option Nat}, x < h.vars.length → (∀ a, v = some a → ∃ i, h.view.info a = some i) →
      go D true f dying (.assign (.var x) v) h = .ok h' → goL D f (.assign (.var x) v) h lg = .ok (h', lg') → Quiet ph lg lg' :=
    fun hx hval a b => ih _ _ _ _ _ _ _ hd a b ⟨none, hv, by simp, hm, var_cell hx, hval, by simp, by simp⟩
  have hslot : ∀ {a i : Nat} {v : Option Nat} {c : Cell}, h.view.cell (.slot a i) = some c →
      (∀ a, v = some a → ∃ i, h.view.info a = some i) → (a ∈ dying → v = none) →
      go D true f dying (.assign (.slot a i) v) h = .ok h' → goL D f (.assign (.slot a i) v) h lg = .ok (h', lg') →
      Quiet ph lg lg' :=
    fun hc hval hdy a b => ih _ _ _ _ _ _ _ hd a b
      ⟨none, hv, by simp, hm, ⟨_, hc⟩, hval, fun _ _ hk ha => by cases hk; exact hdy ha, by simp⟩
  cases o with
  | new x n cls =>
    unfold go at e1
    unfold goL at e2
    by_cases hx : x < h.vars.length
    · rw [if_pos hx] at e1 e2
      have q := ih dying ph (.assign (.var x) (some h.next)) (h.alloc n cls) _ _ _ hd e1 e2
        ⟨some h.next, inv_alloc hv, fun a ha => ha, mort_alloc hm, var_cell (h := h.alloc n cls) hx,
          fun a ha => by
            cases ha
            rw [view_alloc]
            exact ⟨_, if_pos rfl⟩, by simp, by simp⟩
      exact (Quiet.other (by simp)).trans q
    · rw [if_neg hx] at e2; exact hskip e2
  | move x y =>
    unfold go at e1
    unfold goL at e2
    by_cases hx : x < h.vars.length
    · rw [if_pos hx] at e1 e2
      exact hvar hx (fun a ha => val_live hv ha) e1 e2
    · rw [if_neg hx] at e2; exact hskip e2
  | clear x =>
    unfold go at e1
    unfold goL at e2
    by_cases hx : x < h.vars.length
    · rw [if_pos hx] at e1 e2
      exact hvar hx (by simp) e1 e2
    · rw [if_neg hx] at e2; exact hskip e2
  | getField x y i =>
    unfold go at e1
    unfold goL at e2
    cases hs : h.slotOf y i with
    | none => rw [hs] at e2; exact hskip e2
    | some ac =>
      obtain ⟨a, c⟩ := ac
      have := slotOf_spec hs
      rw [hs] at e1 e2
      dsimp only at e1 e2
      by_cases hx : x < h.vars.length
      · rw [if_pos hx] at e1 e2
        refine hvar hx (fun b hb => ?_) e1 e2
        cases c with
        | none => cases hb
        | some p => cases hb; exact hv.live _ _ this.2
      · rw [if_neg hx] at e2; exact hskip e2
  | setField y i x =>
    unfold go at e1
    unfold goL at e2
    cases hs : h.slotOf y i with
    | none => rw [hs] at e2; exact hskip e2
    | some ac =>
      obtain ⟨a, c⟩ := ac
      have := slotOf_spec hs
      rw [hs] at e1 e2
      dsimp only at e1 e2
      by_cases hr : true = true ∧ a ∈ dying ∧ h.val x ≠ none
      · rw [if_pos hr] at e1; cases e1
      · rw [if_neg hr] at e1
        refine hslot this.2 (fun b hb => val_live hv hb) (fun ha => ?_) e1 e2
        apply Classical.byContradiction
        intro hne
        exact hr ⟨rfl, ha, hne⟩
  | clearField y i =>
    unfold go at e1
    unfold goL at e2
    cases hs : h.slotOf y i with
    | none => rw [hs] at e2; exact hskip e2
    | some ac =>
      obtain ⟨a, c⟩ := ac
      have := slotOf_spec hs
      rw [hs] at e1 e2
      exact hslot this.2 (by simp) (fun _ => rfl) e1 e2
  | weaken y i =>
    unfold go at e1
    unfold goL at e2
    cases hs : h.slotOf y i with
    | none => rw [hs] at e2; exact hskip e2
    | some ac =>
      obtain ⟨a, c⟩ := ac
      have := slotOf_spec hs
      rw [hs] at e1 e2
      exact ih _ _ _ _ _ _ _ hd e1 e2 ⟨hv, hm, ⟨c, this.2⟩, ⟨a, i, rfl⟩⟩
  | unweaken y i =>
    unfold goL at e2
    cases hs : h.slotOf y i with
    | none => rw [hs] at e2; exact hskip e2
    | some ac =>
      rw [hs] at e2
      obtain ⟨h1, _, e3⟩ := bind_ok e2
      exact hskip e3
  | pushMortal y =>
    unfold go at e1
    unfold goL at e2
    cases hs : h.val y with
    | none => rw [hs] at e2; exact hskip e2
    | some a =>
      rw [hs] at e1 e2
      exact ih _ _ _ _ _ _ _ hd e1 e2 ⟨hv, hm, val_live hv hs⟩
  | scope body =>
    unfold go at e1
    unfold goL at e2
    obtain ⟨h1, lg1, a1, b1, e1, e2⟩ := lock e1 e2
    have hp1 : Pre dying ph h (.ops body) := ⟨hv, hm⟩
    have q1 := ih _ _ _ _ _ _ _ hd a1 b1 hp1
    obtain ⟨hv1, hm1, hf1⟩ := inv_of hd hp1 a1
    have q2 := ih _ _ _ _ _ _ _ hd e1 e2 ⟨hv1, hm1, Nat.le_refl _, hf1.top, by omega⟩
    exact q1.trans q2

theorem goL_quiet (D : Dtors) : ∀ f, GoodU D f := by
  intro f
  induction f with
  | zero => intro dying ph c h lg h' lg' _ e _ _; unfold go at e; cases e
  | succ f ih =>
    intro dying ph c h lg h' lg' hd e1 e2 hp
    cases c with
    | assign l o =>
      obtain ⟨e, hv, he, hm, ⟨c, hc⟩, ho, hdy, hmo⟩ := hp
      obtain ⟨h1, es, hv1, hc1, hn1, ht1, hi1⟩ := store_ok hv hc ho he
      have hm1 : Mort h1.view := by
        refine mort_congr (setCell_mort (l := l) (c := o.map fun a => ⟨a, false⟩) hm ⟨c, hc⟩ (.inr hmo)) ?_ ht1
        intro k; rw [hc1]; rfl
      unfold go at e1
      unfold goL at e2
      rw [es] at e1 e2
      simp only [Res.ok_bind] at e1 e2
      cases c with
      | none =>
        obtain ⟨_, rfl⟩ := ok_pair e2
        exact .refl _ _
      | some p => exact ih _ _ (.release p.addr) h1 lg _ _ hd e1 e2 ⟨hv1, hm1⟩
    | release a => exact quiet_release ih hd e1 e2 hp
    | clearSlots a i n =>
      obtain ⟨hv, hm, had, ⟨o, ho, hn⟩, hz⟩ := hp
      cases n with
      | zero =>
        unfold goL at e2
        obtain ⟨_, rfl⟩ := ok_pair e2
        exact .refl _ _
      | succ n =>
        unfold go at e1
        unfold goL at e2
        obtain ⟨h1, lg1, a1, b1, e1, e2⟩ := lock e1 e2
        have hcell := (hv.sl a i).mpr ⟨o, ho, by omega⟩
        have hp1 : Pre dying ph h (.assign (.slot a i) none) :=
          ⟨none, hv, by simp, hm, hcell, by simp, fun _ _ _ _ => rfl, by simp⟩
        have q1 := ih _ _ _ _ _ _ _ hd a1 b1 hp1
        obtain ⟨hv1, hm1, hf1, ht1⟩ := inv_of hd hp1 a1
        have hf1' : Frame dying h.view h1.view := frame_of_setCell hf1 (by simp) (fun _ _ _ _ => rfl)
        obtain ⟨o1, ho1⟩ := hv1.phl a (hd a had)
        have hno : o1.nslots = o.nslots := by
          obtain ⟨o', ho', hn', _⟩ := hf1'.old a o1 ho1 (by
            apply Classical.byContradiction
            intro hge
            rw [hv.fresh a (by omega)] at ho; cases ho)
          rw [ho] at ho'; cases ho'; exact hn'
        have q2 := ih _ _ _ _ _ _ _ hd e1 e2
          ⟨hv1, hm1, had, ⟨o1, ho1, by omega⟩, fun j hj => by
            by_cases hji : j = i
            · subst hji
              apply hf1.dy a had
              simp [View.setCell]
            · exact hf1'.dy a had j (hz j (by omega))⟩
        exact q1.trans q2
    | dtor a cls => exact quiet_dtor ih hd e1 e2 hp
    | push a =>
      obtain ⟨hv, hm, ha⟩ := hp
      unfold goL at e2
      rcases grow_ok (dying := dying) hv hm with hg | ⟨h1, eg, hv1, hm1, hf1, ht1, hi1, hc1⟩
      · rw [hg] at e2; cases e2
      · rw [eg] at e2
        simp only [Res.ok_bind] at e2
        have htop : h1.top = h.top := ht1
        have hc1' : h1.view.cell (.mortal h1.top) = some none := by rw [htop]; exact hc1
        cases f with
        | zero => unfold goL at e2; cases e2
        | succ f =>
          obtain ⟨h2, es, _⟩ := store_ok (object := some a) hv1 hc1' (fun b hb => by cases hb; rw [hi1]; exact ha) (by simp)
          unfold goL at e2
          rw [es] at e2
          simp only [Res.ok_bind, Option.map_none] at e2
          obtain ⟨_, rfl⟩ := ok_pair e2
          exact .refl _ _
    | leave k i =>
      obtain ⟨hv, hm, hki, hit, hz⟩ := hp
      unfold go at e1
      unfold goL at e2
      by_cases hlt : i < h.top
      · rw [if_pos hlt] at e1 e2
        obtain ⟨h1, lg1, a1, b1, e1, e2⟩ := lock e1 e2
        have hp1 : Pre dying ph h (.assign (.mortal i) none) :=
          ⟨none, hv, by simp, hm, hm.1 i hlt, by simp, fun _ _ _ _ => rfl, fun j hj => by cases hj; exact hlt⟩
        have q1 := ih _ _ _ _ _ _ _ hd a1 b1 hp1
        obtain ⟨hv1, hm1, hf1, ht1⟩ := inv_of hd hp1 a1
        have hmor : ∀ j, j < h.top → h1.view.cell (.mortal j) = if j = i then some none else h.view.cell (.mortal j) := by
          intro j hj
          rw [hf1.mort j hj]
          simp only [View.setCell, Loc.mortal.injEq, Option.map_none]
        have q2 := ih _ _ _ _ _ _ _ hd e1 e2
          ⟨hv1, hm1, by omega, by omega, fun j hj1 hj2 => by
            rw [hmor j (by omega)]
            split
            · rfl
            · exact hz j hj1 (by omega)⟩
        exact q1.trans q2
      · rw [if_neg hlt] at e2
        obtain ⟨_, rfl⟩ := ok_pair e2
        exact .refl _ _
    | weaken l =>
      obtain ⟨hv, hm, ⟨c, hc⟩, hsl⟩ := hp
      unfold go at e1
      unfold goL at e2
      rw [read_ok hc] at e1 e2
      simp only [Res.ok_bind] at e1 e2
      cases c with
      | none =>
        obtain ⟨_, rfl⟩ := ok_pair e2
        exact .refl _ _
      | some p =>
        obtain ⟨b, w⟩ := p
        cases w with
        | true =>
          obtain ⟨_, rfl⟩ := ok_pair e2
          exact .refl _ _
        | false =>
          obtain ⟨o, ho⟩ := hv.live l _ hc
          simp only at ho
          obtain ⟨ob, eo, hob, hobi⟩ := obj_ok ho
          simp only [eo, Res.ok_bind, if_neg (show ¬ (false = true) by simp)] at e1 e2
          by_cases hone : ob.count = 1
          · rw [if_pos hone] at e1 e2
            obtain ⟨h1, ew, v2⟩ := write_ok (c := none) ⟨_, hc⟩
            rw [ew] at e1 e2
            simp only [Res.ok_bind] at e1 e2
            exact ih _ _ (.release b) h1 lg _ _ hd e1 e2
              ⟨by rw [v2]; exact inv_clear hv hc, by rw [v2]; exact setCell_mort hm ⟨_, hc⟩ (.inl rfl)⟩
          · rw [if_neg hone] at e2
            obtain ⟨h1, _, e2⟩ := bind_ok e2
            obtain ⟨h2, _, e2⟩ := bind_ok e2
            obtain ⟨h3, _, e2⟩ := bind_ok e2
            obtain ⟨_, rfl⟩ := ok_pair e2
            exact .refl _ _
    | op o => exact quiet_op ih hd e1 e2 hp
    | ops os =>
      obtain ⟨hv, hm⟩ := hp
      cases os with
      | nil =>
        unfold goL at e2
        obtain ⟨_, rfl⟩ := ok_pair e2
        exact .refl _ _
      | cons o rest =>
        unfold go at e1
        unfold goL at e2
        obtain ⟨h1, lg1, a1, b1, e1, e2⟩ := lock e1 e2
        have hp1 : Pre dying ph h (.op o) := ⟨hv, hm⟩
        have q1 := ih _ _ _ _ _ _ _ hd a1 b1 hp1
        obtain ⟨hv1, hm1, hf1⟩ := inv_of hd hp1 a1
        have q2 := ih _ _ _ _ _ _ _ hd e1 e2 ⟨hv1, hm1⟩
        exact q1.trans q2

end SPVM.Destroy
