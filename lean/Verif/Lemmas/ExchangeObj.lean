import Verif.Lemmas.Exchange
import Verif.Spec.ExchangeHeap

/-! # Lemmas about object elements -/

namespace SPVM.Exch

/-- Every object other than `x` keeps its type, length and contents. -/
def Keeps (x : Nat) (h h' : Heap) : Prop := ∀ (a : Nat) (ob : Obj), a ≠ x → h[a]? = some ob → ∃ r, h'[a]? = some { ob with rc := r }

theorem Keeps.refl (x : Nat) (h : Heap) : Keeps x h h := fun _ ob _ e => ⟨ob.rc, e⟩
theorem Same.refl (h : Heap) : Same h h := fun _ ob e => ⟨ob.rc, e⟩
theorem Same.keeps {h h' : Heap} (s : Same h h') (x : Nat) : Keeps x h h' := fun a ob _ e => s a ob e

theorem Keeps.trans {x : Nat} {h h' h'' : Heap} (a : Keeps x h h') (b : Keeps x h' h'') : Keeps x h h'' := by
  intro i ob hi e
  obtain ⟨r, e⟩ := a i ob hi e
  obtain ⟨r', e'⟩ := b i _ hi e
  exact ⟨r', e'⟩

theorem Same.trans {h h' h'' : Heap} (a : Same h h') (b : Same h' h'') : Same h h'' := by
  intro i ob e
  obtain ⟨r, e⟩ := a i ob e
  obtain ⟨r', e'⟩ := b i _ e
  exact ⟨r', e'⟩

theorem Same.append (h : Heap) (ob : Obj) : Same h (h ++ [ob]) := by
  intro a ob' e
  have := (List.getElem?_eq_some_iff.1 e).1
  exact ⟨ob'.rc, by rw [List.getElem?_append_left this]; exact e⟩

theorem Points.mono {h h' : Heap} {o : Option Nat} (p : Points h o) (l : h.length ≤ h'.length) : Points h' o :=
  fun a e => Nat.lt_of_lt_of_le (p a e) l

theorem rc_set {h : Heap} {a : Nat} {ob : Obj} (e : h[a]? = some ob) (r : Nat) : Same h (h.set a { ob with rc := r }) := by
  intro b ob' e'
  by_cases hb : b = a
  · subst hb
    rw [e] at e'
    cases e'
    exact ⟨r, by rw [List.getElem?_set_self (List.getElem?_eq_some_iff.1 e).1]⟩
  · exact ⟨ob'.rc, by rw [List.getElem?_set_ne (Ne.symm hb)]; exact e'⟩

theorem retain_ok {h : Heap} {o : Option Nat} (p : Points h o) :
    ∃ h', retain o h = (.ok (), h') ∧ Same h h' ∧ h'.length = h.length := by
  cases o with
  | none => exact ⟨h, rfl, .refl h, rfl⟩
  | some a =>
    have e : h[a]? = some (h[a]'(p a rfl)) := List.getElem?_eq_getElem (p a rfl)
    exact ⟨h.set a { h[a]'(p a rfl) with rc := (h[a]'(p a rfl)).rc + 1 }, by simp [retain, update, e], rc_set e _, by simp⟩

theorem bless_ok {h : Heap} {o : Option Nat} (k : Kind) (p : Points h o) :
    ∃ h', bless k o h = (.ok (.obj k o), h') ∧ Same h h' ∧ h'.length = h.length := by
  obtain ⟨h', e, s, l⟩ := retain_ok p
  exact ⟨h', by rw [bless, Prog.bind_ok e]; rfl, s, l⟩

theorem setElem_ok {h : Heap} {a i : Nat} {ob : Obj} {es : List (Option Nat)} {o : Option Nat} (e : h[a]? = some ob)
    (hb : ob.body = .objs es) (hi : i < es.length) (p : Points h o) (po : ∀ x ∈ es, Points h x) :
    ∃ h' r, setElem a i o h = (.ok (), h') ∧ h'[a]? = some { ob with body := .objs (es.set i o), rc := r } ∧
      Keeps a h h' ∧ h'.length = h.length := by
  obtain ⟨h1, e1, s1, l1⟩ := retain_ok p
  obtain ⟨r1, a1⟩ := s1 a ob e
  have ha : a < h1.length := (List.getElem?_eq_some_iff.1 a1).1
  have hold : es[i]? = some es[i] := List.getElem?_eq_getElem hi
  let ob2 : Obj := { ob with body := .objs (es.set i o), rc := r1 }
  have e2 : update a (fun ob => { ob with body := .objs (es.set i o) }) h1 = (.ok (), h1.set a ob2) := by
    simp [update, a1, ob2]
  have k2 : Keeps a h (h1.set a ob2) := by
    intro b obb hb' eb
    obtain ⟨r, eb⟩ := s1 b obb eb
    exact ⟨r, by rw [List.getElem?_set_ne (Ne.symm hb')]; exact eb⟩
  have a2 : (h1.set a ob2)[a]? = some ob2 := List.getElem?_set_self ha
  have start (old : Option Nat) (ho : es[i]? = some old) : setElem a i o h =
      (match old with
        | none => (pure () : X Unit)
        | some b => update b fun ob => { ob with rc := ob.rc - 1 }) (h1.set a ob2) := by
    rw [setElem, Prog.bind_ok (deref_some e)]
    simp only [hb, ho]
    rw [Prog.bind_ok e1, Prog.bind_ok e2]
    cases old <;> rfl
  cases ho : es[i] with
  | none =>
    refine ⟨_, r1, ?_, a2, k2, by simp [l1]⟩
    rw [start none (by rw [hold, ho])]; rfl
  | some b =>
    have hb' : b < (h1.set a ob2).length := by
      simp only [List.length_set, l1]
      exact po _ (List.getElem_mem hi) b ho
    have eb : (h1.set a ob2)[b]? = some (h1.set a ob2)[b] := List.getElem?_eq_getElem hb'
    have s3 := rc_set eb ((h1.set a ob2)[b].rc - 1)
    obtain ⟨r3, a3⟩ := s3 a ob2 a2
    refine ⟨_, r3, ?_, a3, k2.trans (s3.keeps a), by simp [l1]⟩
    rw [start (some b) (by rw [hold, ho])]
    simp only [update, eb]

/-- The class of the elements shown to Perl. -/
def shown (k : Kind) : Option Nat → Sv
  | none => .undef
  | some a => .obj k (some a)

theorem blessAll_ok {k : Kind} : ∀ {os : List (Option Nat)} {h : Heap}, (∀ o ∈ os, Points h o) →
    ∃ h', blessAll k os h = (.ok (os.map (shown k)), h') ∧ Same h h' ∧ h'.length = h.length := by
  intro os
  induction os with
  | nil => intro h _; exact ⟨h, rfl, .refl h, rfl⟩
  | cons o os ih =>
    intro h hp
    cases o with
    | none =>
      obtain ⟨h', e, s, l⟩ := ih (h := h) (fun o ho => hp o (by simp [ho]))
      exact ⟨h', by rw [blessAll, Prog.bind_ok e]; rfl, s, l⟩
    | some a =>
      obtain ⟨h1, e1, s1, l1⟩ := bless_ok (h := h) k (hp (some a) (by simp))
      obtain ⟨h', e, s, l⟩ := ih (h := h1) (fun o ho => (hp o (by simp [ho])).mono (by omega))
      exact ⟨h', by rw [blessAll, Prog.bind_ok e1, Prog.bind_ok e]; rfl, s1.trans s, by omega⟩

theorem toElems_objs {P : Perl} {h : Heap} {a : Nat} {ob : Obj} {os : List (Option Nat)} (e : h[a]? = some ob)
    (hb : ob.body = .objs os) (hp : ∀ o ∈ os, Points h o) :
    ∃ h', toElems P (.obj .arr (some a)) h = (.ok (.aref (os.map (shown (elemKind ob.ty ob.dim)))), h') ∧ Same h h' := by
  obtain ⟨h', e', s, _⟩ := blessAll_ok (k := elemKind ob.ty ob.dim) hp
  refine ⟨h', ?_, s⟩
  rw [toElems, objectOf, Prog.pure_bind_apply, Prog.bind_ok (deref_some e)]
  simp only [hb]
  rw [Prog.bind_ok e']
  rfl

/-! ## Strings -/

theorem newString_plain {P : Perl} {v : Sv} (h : Heap) (hv : Plain v) (hl : (svPV P v).length < 2147483648) :
    newString P v h = (.ok (.obj .str (some h.length)),
      h ++ [{ ty := .string, dim := 0, len := (svPV P v).length, body := .str (svPV P v), rc := 1 }]) := by
  cases hv <;>
    simp only [newString, if_pos hl, Prog.bind_apply, alloc, bless, retain, update, get_append_last, set_append_last,
      Prog.pure_apply]

theorem newString_undef (P : Perl) : newString P .undef = pure .undef := rfl
theorem newString_str (P : Perl) (o : Option Nat) : newString P (.obj .str o) = pure (.obj .str o) := rfl

/-- An element of a Perl list that a string array takes. -/
def StrElem (P : Perl) (h : Heap) (v : Sv) : Prop :=
  v = .undef ∨ (Plain v ∧ (svPV P v).length < 2147483648) ∨ ∃ o, v = .obj .str o ∧ Points h o

/-- The element of the string array made from the scalar. -/
def StrIs (P : Perl) (h : Heap) (v : Sv) (o : Option Nat) : Prop :=
  (v = .undef ∧ o = none) ∨ (∃ b ob, Plain v ∧ o = some b ∧ h[b]? = some ob ∧ ob.ty = .string ∧ ob.dim = 0 ∧ ob.body = .str (svPV P v)) ∨
  v = .obj .str o

theorem StrElem.mono {P : Perl} {h h' : Heap} {v : Sv} (s : StrElem P h v) (l : h.length ≤ h'.length) : StrElem P h' v := by
  rcases s with s | s | ⟨o, e, p⟩
  · exact .inl s
  · exact .inr (.inl s)
  · exact .inr (.inr ⟨o, e, p.mono l⟩)

theorem set_prefix (os os' : List α) (x y : α) : (os ++ x :: os').set os.length y = (os ++ [y]) ++ os' := by
  rw [List.set_append_right _ _ (by omega)]; simp

/-- The elements `new_string` refuses. -/
def refused : Sv → Bool
  | .aref _ | .href _ | .sref _ | .code | .obj .cls _ | .obj .arr _ => true
  | _ => false

theorem strLoop_go {P : Perl} {a i : Nat} {v : Sv} {vs : List Sv} (hv : refused v = false) :
    strLoop P a i (v :: vs) = (do
      let w ← newString P v
      let o ← objectOf w
      setElem a i o
      strLoop P a (i + 1) vs) := by
  cases v with
  | obj k o => cases k <;> first | rfl | cases hv
  | _ => first | rfl | cases hv

theorem strLoop_stop {P : Perl} {a i : Nat} {v : Sv} {vs : List Sv} (hv : refused v = true) :
    strLoop P a i (v :: vs) = Prog.die s!"'s {i + 1}th element must be a non-reference scalar" := by
  cases v with
  | obj k o => cases k <;> first | rfl | cases hv
  | _ => first | rfl | cases hv

theorem strStep {P : Perl} {a : Nat} {v : Sv} {vs : List Sv} {h : Heap} {ob : Obj} {os : List (Option Nat)}
    (e : h[a]? = some ob) (hb : ob.body = .objs (os ++ List.replicate (vs.length + 1) none)) (hp : ∀ o ∈ os, Points h o)
    (hv : StrElem P h v) :
    ∃ h1 o r, strLoop P a os.length (v :: vs) h = (strLoop P a (os.length + 1) vs) h1 ∧
        h1[a]? = some { ob with body := .objs ((os ++ [o]) ++ List.replicate vs.length none), rc := r } ∧
        Keeps a h h1 ∧ (StrIs P h1 v o ∧ ∀ b, o = some b → b ≠ a ∨ v = .obj .str o) ∧ Points h1 o ∧ h.length ≤ h1.length := by
  have ha : a < h.length := (List.getElem?_eq_some_iff.1 e).1
  have hlen : os.length < (os ++ List.replicate (vs.length + 1) (none : Option Nat)).length := by simp
  have hset (o : Option Nat) : (os ++ List.replicate (vs.length + 1) none).set os.length o =
      (os ++ [o]) ++ List.replicate vs.length none := by
    rw [List.replicate_succ]; exact set_prefix ..
  have hpts (h0 : Heap) (l : h.length ≤ h0.length) : ∀ x ∈ os ++ List.replicate (vs.length + 1) (none : Option Nat), Points h0 x := by
    intro x hx
    rcases List.mem_append.1 hx with hx | hx
    · exact (hp x hx).mono l
    · rw [(List.mem_replicate.1 hx).2]; intro b hb; cases hb
  rcases hv with rfl | ⟨hpl, hl⟩ | ⟨o, rfl, po⟩
  · obtain ⟨h1, r, e1, a1, k1, l1⟩ := setElem_ok (o := none) e hb hlen (fun b hb => nomatch hb) (hpts h (Nat.le_refl _))
    refine ⟨h1, none, r, ?_, by rw [← hset]; exact a1, k1, ⟨.inl ⟨rfl, rfl⟩, fun b hb => nomatch hb⟩,
      (fun b hb => nomatch hb), by omega⟩
    rw [strLoop_go rfl, newString_undef, Prog.pure_bind_apply, objectOf, Prog.pure_bind_apply, Prog.bind_ok e1]
  · have en := newString_plain h hpl hl
    have e' : (h ++ [{ ty := BT.string, dim := 0, len := (svPV P v).length, body := .str (svPV P v), rc := 1 }])[a]? = some ob := by
      rw [List.getElem?_append_left ha]; exact e
    obtain ⟨h1, r, e1, a1, k1, l1⟩ := setElem_ok (o := some h.length) e' hb hlen (fun b hb => by cases hb; simp)
      (hpts _ (by simp))
    obtain ⟨r2, b2⟩ := k1 h.length _ (by omega) (get_append_last ..)
    refine ⟨h1, some h.length, r, ?_, by rw [← hset]; exact a1, ((Same.append h _).keeps a).trans k1,
      ⟨.inr (.inl ⟨h.length, _, hpl, rfl, b2, rfl, rfl, rfl⟩), fun b hb => by cases hb; exact .inl (by omega)⟩,
      (fun b hb => by cases hb; rw [l1]; simp), by rw [l1]; simp⟩
    rw [strLoop_go (by cases hpl <;> rfl), Prog.bind_ok en, objectOf, Prog.pure_bind_apply, Prog.bind_ok e1]
  · obtain ⟨h1, r, e1, a1, k1, l1⟩ := setElem_ok (o := o) e hb hlen po (hpts h (Nat.le_refl _))
    refine ⟨h1, o, r, ?_, by rw [← hset]; exact a1, k1, ⟨.inr (.inr rfl), fun b hb => .inr rfl⟩,
      po.mono (by omega), by omega⟩
    rw [strLoop_go rfl, newString_str, Prog.pure_bind_apply, objectOf, Prog.pure_bind_apply, Prog.bind_ok e1]

theorem strLoop_ok {P : Perl} {a : Nat} : ∀ {vs : List Sv} {h : Heap} {ob : Obj} {os : List (Option Nat)},
    h[a]? = some ob → ob.body = .objs (os ++ List.replicate vs.length none) → (∀ o ∈ os, Points h o) →
    (∀ v ∈ vs, StrElem P h v) →
    ∃ h' os' r, strLoop P a os.length vs h = (.ok (), h') ∧ h'[a]? = some { ob with body := .objs (os ++ os'), rc := r } ∧
      Keeps a h h' ∧ AllRel (fun v o => StrIs P h' v o ∧ Points h' o) vs os' ∧ h.length ≤ h'.length := by
  intro vs
  induction vs with
  | nil =>
    intro h ob os e hb _ _
    refine ⟨h, [], ob.rc, rfl, ?_, .refl _ _, .nil, Nat.le_refl _⟩
    rw [e]
    simp only [List.length_nil, List.replicate_zero, List.append_nil] at hb
    rw [List.append_nil, ← hb]
  | cons v vs ih =>
    intro h ob os e hb hp hv
    obtain ⟨h1, o, r, e1, a1, k1, ⟨is1, ne1⟩, p1, l1⟩ := strStep (vs := vs) e hb hp (hv v (by simp))
    obtain ⟨h', os', r', e2, a2, k2, rel, l2⟩ := ih (os := os ++ [o]) a1 rfl
      (fun x hx => by
        rcases List.mem_append.1 hx with hx | hx
        · exact (hp x hx).mono l1
        · rw [List.mem_singleton.1 hx]; exact p1)
      (fun w hw => (hv w (by simp [hw])).mono l1)
    rw [List.length_append, List.length_singleton] at e2
    refine ⟨h', o :: os', r', by rw [e1]; exact e2, by simpa using a2, k1.trans k2, .cons ⟨?_, p1.mono l2⟩ rel, by omega⟩
    rcases is1 with h | ⟨b, obb, hpl, rfl, hb', ht, hd, hbd⟩ | h
    · exact .inl h
    · rcases ne1 b rfl with hne | hne
      · obtain ⟨rr, hb2⟩ := k2 b obb hne hb'
        exact .inr (.inl ⟨b, _, hpl, rfl, hb2, ht, hd, hbd⟩)
      · exact .inr (.inr hne)
    · exact .inr (.inr h)

theorem strLoop_die {P : Perl} {a : Nat} : ∀ {vs : List Sv} {h : Heap} {ob : Obj} {os : List (Option Nat)},
    h[a]? = some ob → ob.body = .objs (os ++ List.replicate vs.length none) → (∀ o ∈ os, Points h o) →
    (∀ v ∈ vs, StrElem P h v ∨ refused v = true) → (∃ v ∈ vs, refused v = true) →
    ∃ m h', strLoop P a os.length vs h = (.die m, h') ∧ Keeps a h h' := by
  intro vs
  induction vs with
  | nil => intro h ob os _ _ _ _ ⟨v, hv, _⟩; cases hv
  | cons v vs ih =>
    intro h ob os e hb hp hv ⟨w, hw, hr⟩
    by_cases hv' : refused v = true
    · exact ⟨_, h, by rw [strLoop_stop hv']; rfl, .refl _ _⟩
    · obtain ⟨h1, o, r, e1, a1, k1, _, p1, l1⟩ := strStep (vs := vs) e hb hp ((hv v (by simp)).resolve_right hv')
      obtain ⟨m, h', e2, k2⟩ := ih (os := os ++ [o]) a1 rfl
        (fun x hx => by
          rcases List.mem_append.1 hx with hx | hx
          · exact (hp x hx).mono l1
          · rw [List.mem_singleton.1 hx]; exact p1)
        (fun w hw => (hv w (by simp [hw])).imp_left (·.mono l1))
        (by
          rcases List.mem_cons.1 hw with rfl | hw
          · exact absurd hr hv'
          · exact ⟨w, hw, hr⟩)
      rw [List.length_append, List.length_singleton] at e2
      exact ⟨m, h', by rw [e1]; exact e2, k1.trans k2⟩

/-! ## Objects -/

/-- The element of a Perl list an array of objects takes: undefined, or an object that may be assigned. -/
inductive ObjElem (W : World) (t : BT) (d : Nat) (h : Heap) : Sv → Option Nat → Prop
  | undef : ObjElem W t d h .undef none
  | null (k) : ObjElem W t d h (.obj k none) none
  | obj (k b ob) : h[b]? = some ob → W.isa ob.ty ob.dim t d = true → ObjElem W t d h (.obj k (some b)) (some b)

theorem ObjElem.points {W : World} {t : BT} {d : Nat} {h : Heap} {v : Sv} {o : Option Nat} (e : ObjElem W t d h v o) : Points h o := by
  cases e with
  | undef => intro a ha; cases ha
  | null => intro a ha; cases ha
  | obj k b ob hb _ => intro a ha; cases ha; exact (List.getElem?_eq_some_iff.1 hb).1

theorem ObjElem.keep {W : World} {t : BT} {d : Nat} {h h' : Heap} {v : Sv} {o : Option Nat} {a : Nat}
    (e : ObjElem W t d h v o) (k : Keeps a h h') (ne : o ≠ some a) : ObjElem W t d h' v o := by
  cases e with
  | undef => exact .undef
  | null k => exact .null k
  | obj k' b ob hb hi =>
    obtain ⟨r, hb'⟩ := k b ob (fun e => ne (by rw [e])) hb
    exact .obj k' b _ hb' hi

theorem isa_eq {W : World} {t : BT} {d : Nat} {h : Heap} {k : Kind} {b : Option Nat} (p : Points h b) :
    (isa W b t d h = (.ok true, h) ∧ ObjElem W t d h (.obj k b) b) ∨
    (isa W b t d h = (.ok false, h) ∧ ∀ o, ¬ ObjElem W t d h (.obj k b) o) := by
  cases b with
  | none => exact .inl ⟨rfl, .null k⟩
  | some b =>
    have e : h[b]? = some (h[b]'(p b rfl)) := List.getElem?_eq_getElem (p b rfl)
    have hi : isa W (some b) t d h = (.ok (W.isa (h[b]'(p b rfl)).ty (h[b]'(p b rfl)).dim t d), h) := by
      rw [isa, Prog.bind_ok (deref_some e)]; rfl
    cases hw : W.isa (h[b]'(p b rfl)).ty (h[b]'(p b rfl)).dim t d with
    | true => exact .inl ⟨by rw [hi, hw], .obj k b _ e hw⟩
    | false =>
      refine .inr ⟨by rw [hi, hw], fun o ho => ?_⟩
      cases ho with
      | obj _ _ ob hb hi' =>
        rw [e] at hb; cases hb
        rw [hw] at hi'; cases hi'

theorem objStep {W : World} {t : BT} {d a : Nat} {v : Sv} {vs : List Sv} {h : Heap} {ob : Obj} {os : List (Option Nat)} {o : Option Nat}
    (e : h[a]? = some ob) (hb : ob.body = .objs (os ++ List.replicate (vs.length + 1) none)) (hp : ∀ o ∈ os, Points h o)
    (hv : ObjElem W t (d - 1) h v o) :
    ∃ h1 r, objLoop W t d a os.length (v :: vs) h = (objLoop W t d a (os.length + 1) vs) h1 ∧
        h1[a]? = some { ob with body := .objs ((os ++ [o]) ++ List.replicate vs.length none), rc := r } ∧
        Keeps a h h1 ∧ h1.length = h.length := by
  have hlen : os.length < (os ++ List.replicate (vs.length + 1) (none : Option Nat)).length := by simp
  have hset (o : Option Nat) : (os ++ List.replicate (vs.length + 1) none).set os.length o =
      (os ++ [o]) ++ List.replicate vs.length none := by
    rw [List.replicate_succ]; exact set_prefix ..
  have hpts : ∀ x ∈ os ++ List.replicate (vs.length + 1) (none : Option Nat), Points h x := by
    intro x hx
    rcases List.mem_append.1 hx with hx | hx
    · exact hp x hx
    · rw [(List.mem_replicate.1 hx).2]; intro b hb; cases hb
  obtain ⟨h1, r, e1, a1, k1, l1⟩ := setElem_ok (o := o) e hb hlen hv.points hpts
  refine ⟨h1, r, ?_, by rw [← hset]; exact a1, k1, l1⟩
  cases hv with
  | undef =>
    show (do setElem a os.length none; objLoop W t d a (os.length + 1) vs : X Unit) h = _
    rw [Prog.bind_ok e1]
  | null k =>
    show (do
      let ok ← isa W none t (d - 1)
      if ok then do
        setElem a os.length none
        objLoop W t d a (os.length + 1) vs
      else Prog.die s!"'s {os.length + 1}th element must be the assignable type" : X Unit) h = _
    rw [Prog.bind_ok (show isa W none t (d - 1) h = (.ok true, h) from rfl)]
    simp only [if_true]
    rw [Prog.bind_ok e1]
  | obj k b obb hbb hi =>
    show (do
      let ok ← isa W (some b) t (d - 1)
      if ok then do
        setElem a os.length (some b)
        objLoop W t d a (os.length + 1) vs
      else Prog.die s!"'s {os.length + 1}th element must be the assignable type" : X Unit) h = _
    have hi' : isa W (some b) t (d - 1) h = (.ok true, h) := by
      rw [isa, Prog.bind_ok (deref_some hbb)]; simp [hi]
    rw [Prog.bind_ok hi']
    simp only [if_true]
    rw [Prog.bind_ok e1]

theorem objLoop_ok {W : World} {t : BT} {d a : Nat} : ∀ {vs : List Sv} {h : Heap} {ob : Obj} {os os' : List (Option Nat)},
    h[a]? = some ob → ob.body = .objs (os ++ List.replicate vs.length none) → (∀ o ∈ os, Points h o) →
    AllRel (fun v o => ObjElem W t (d - 1) h v o ∧ o ≠ some a) vs os' →
    ∃ h' r, objLoop W t d a os.length vs h = (.ok (), h') ∧ h'[a]? = some { ob with body := .objs (os ++ os'), rc := r } ∧
      Keeps a h h' ∧ h'.length = h.length := by
  intro vs
  induction vs with
  | nil =>
    intro h ob os os' e hb _ hv
    cases hv
    refine ⟨h, ob.rc, rfl, ?_, .refl _ _, rfl⟩
    rw [e]
    simp only [List.length_nil, List.replicate_zero, List.append_nil] at hb
    rw [List.append_nil, ← hb]
  | cons v vs ih =>
    intro h ob os os' e hb hp hv
    cases hv with
    | cons hv hvs =>
      rename_i o os'
      obtain ⟨h1, r, e1, a1, k1, l1⟩ := objStep (vs := vs) e hb hp hv.1
      have hvs' : AllRel (fun v o => ObjElem W t (d - 1) h1 v o ∧ o ≠ some a) vs os' := by
        clear ih e1 a1 hb e
        induction hvs with
        | nil => exact .nil
        | cons x _ ih => exact .cons ⟨x.1.keep k1 x.2, x.2⟩ ih
      obtain ⟨h', r', e2, a2, k2, l2⟩ := ih (os := os ++ [o]) a1 rfl
        (fun x hx => by
          rcases List.mem_append.1 hx with hx | hx
          · exact (hp x hx).mono (by omega)
          · rw [List.mem_singleton.1 hx]; exact hv.1.points.mono (by omega))
        hvs'
      rw [List.length_append, List.length_singleton] at e2
      exact ⟨h', r', by rw [e1]; exact e2, by simpa using a2, k1.trans k2, by omega⟩

/-- An element the array refuses. -/
def ObjBad (W : World) (t : BT) (d : Nat) (h : Heap) (v : Sv) : Prop :=
  (∀ o, ¬ ObjElem W t d h v o) ∧ ∀ k o, v = .obj k o → Points h o

theorem objLoop_stop {W : World} {t : BT} {d a i : Nat} {v : Sv} {vs : List Sv} {h : Heap} (hv : ObjBad W t (d - 1) h v) :
    ∃ m, objLoop W t d a i (v :: vs) h = (.die m, h) := by
  cases v with
  | undef => exact absurd .undef (hv.1 none)
  | obj k b =>
    rcases isa_eq (W := W) (t := t) (d := d - 1) (k := k) (hv.2 k b rfl) with ⟨_, ho⟩ | ⟨hi, _⟩
    · exact absurd ho (hv.1 b)
    · refine ⟨s!"'s {i + 1}th element must be the assignable type", ?_⟩
      rw [objLoop, Prog.bind_ok hi]
      rfl
  | _ => exact ⟨_, rfl⟩

theorem objLoop_die {W : World} {t : BT} {d a : Nat} : ∀ {vs : List Sv} {h : Heap} {ob : Obj} {os : List (Option Nat)},
    h[a]? = some ob → ob.body = .objs (os ++ List.replicate vs.length none) → (∀ o ∈ os, Points h o) →
    (∀ v ∈ vs, ∀ k o, v = .obj k o → Points h o ∧ o ≠ some a) → (∃ v ∈ vs, ∀ o, ¬ ObjElem W t (d - 1) h v o) →
    ∃ m h', objLoop W t d a os.length vs h = (.die m, h') ∧ Keeps a h h' := by
  intro vs
  induction vs with
  | nil => intro h ob os _ _ _ _ ⟨v, hv, _⟩; cases hv
  | cons v vs ih =>
    intro h ob os e hb hp hv ⟨w, hw, hr⟩
    by_cases hv' : ∃ o, ObjElem W t (d - 1) h v o
    · obtain ⟨o, ho⟩ := hv'
      obtain ⟨h1, r, e1, a1, k1, l1⟩ := objStep (vs := vs) e hb hp ho
      have hback : ∀ w ∈ vs, ∀ o, ObjElem W t (d - 1) h1 w o → ∃ o, ObjElem W t (d - 1) h w o := by
        intro w hw o hwo
        cases hwo with
        | undef => exact ⟨_, .undef⟩
        | null k => exact ⟨_, .null k⟩
        | obj k b ob1 hb1 hi =>
          obtain ⟨hpt, hne⟩ := hv (.obj k (some b)) (List.mem_cons_of_mem _ hw) k (some b) rfl
          have e0 : h[b]? = some (h[b]'(hpt b rfl)) := List.getElem?_eq_getElem (hpt b rfl)
          obtain ⟨r0, e1'⟩ := k1 b _ (fun e => hne (by rw [e])) e0
          rw [e1'] at hb1
          cases hb1
          exact ⟨_, .obj k b _ e0 hi⟩
      obtain ⟨m, h', e2, k2⟩ := ih (os := os ++ [o]) a1 rfl
        (fun x hx => by
          rcases List.mem_append.1 hx with hx | hx
          · exact (hp x hx).mono (by omega)
          · rw [List.mem_singleton.1 hx]; exact ho.points.mono (by omega))
        (fun w hw k o e => ⟨(hv w (by simp [hw]) k o e).1.mono (by omega), (hv w (by simp [hw]) k o e).2⟩)
        (by
          rcases List.mem_cons.1 hw with rfl | hw
          · exact absurd ho (hr o)
          · exact ⟨w, hw, fun o ho' => by obtain ⟨o', h'⟩ := hback w hw o ho'; exact hr o' h'⟩)
      rw [List.length_append, List.length_singleton] at e2
      exact ⟨m, h', by rw [e1]; exact e2, k1.trans k2⟩
    · obtain ⟨m, e1⟩ := objLoop_stop (W := W) (t := t) (d := d) (a := a) (i := os.length) (vs := vs) (h := h) (v := v)
        ⟨fun o ho => hv' ⟨o, ho⟩, fun k o e => (hv v (by simp) k o e).1⟩
      exact ⟨m, h, e1, .refl _ _⟩

end SPVM.Exch
