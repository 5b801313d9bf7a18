import Verif.Spec.CallMethod
import Verif.Lemmas.ExchangeObj

/-! # Lemmas about `call_method` -/

namespace SPVM.Exch

theorem Same.length {h h' : Heap} (s : Same h h') : h.length ≤ h'.length := by
  rcases Nat.lt_or_ge h'.length h.length with hlt | hge
  · obtain ⟨r, e⟩ := s h'.length _ (List.getElem?_eq_getElem hlt)
    have := (List.getElem?_eq_some_iff.1 e).1
    omega
  · exact hge

theorem Known.same {h h' : Heap} {v : Sv} (k : Known h v) (s : Same h h') : Known h' v :=
  fun kd o e => ⟨(k kd o e).1, (k kd o e).2.mono s.length⟩

theorem KnownArg.same {h h' : Heap} {v : Sv} (k : KnownArg h v) (s : Same h h') : KnownArg h' v :=
  ⟨k.1.same s, fun es e x hx => (k.2 es e x hx).same s⟩

theorem Assignable.same {W : World} {t : BT} {d : Nat} {h h' : Heap} {v : Sv} (a : Assignable W t d h v) (s : Same h h') :
    Assignable W t d h' v := by
  rcases a with a | ⟨k, b, ob, e, hb, hi⟩
  · exact .inl a
  · obtain ⟨r, hb'⟩ := s b ob hb
    exact .inr ⟨k, b, _, e, hb', hi⟩

theorem StrGot.mono {P : Perl} {h h' : Heap} {v : Sv} {o : Option Nat} (g : StrGot P h v o) (s : Same h h') : StrGot P h' v o := by
  cases g with
  | undef => exact .undef
  | same b => exact .same b
  | new hp hb h1 h2 h3 =>
    obtain ⟨r, hb'⟩ := s _ _ hb
    exact .new hp hb' h1 h2 h3

theorem allRel_imp {α β : Type} {R S : α → β → Prop} {as : List α} {bs : List β} (h : AllRel R as bs) (f : ∀ a b, R a b → S a b) :
    AllRel S as bs := by
  induction h with
  | nil => exact .nil
  | cons x _ ih => exact .cons (f _ _ x) ih

theorem Passed.same {P : Perl} {h h' : Heap} {i : Nat} {a : Arg} {v : Sv} {s : List Slot} {b : Option Buf}
    (p : Passed P h i a v s b) (sm : Same h h') : Passed P h' i a v s b := by
  cases p with
  | num x => exact .num x
  | str x => exact .str (x.mono sm)
  | any x => exact .any (x.imp id fun y => ⟨y.1, y.2.mono sm⟩)
  | cls x => exact .cls x
  | mul x y => exact .mul x y
  | refNum x => exact .refNum x
  | refMul x y => exact .refMul x y
  | arr x => exact .arr x
  | numArr x y => obtain ⟨r, e⟩ := sm _ _ x; exact .numArr e y
  | strArr x y => obtain ⟨r, e⟩ := sm _ _ x; exact .strArr e (allRel_imp y fun _ _ z => z.mono sm)
  | mulArr x y => obtain ⟨r, e⟩ := sm _ _ x; exact .mulArr e y
  | objArr x y => obtain ⟨r, e⟩ := sm _ _ x; exact .objArr e y

theorem AllPassed.same {P : Perl} {h h' : Heap} {i : Nat} {as : List Arg} {vs : List Sv} {s : List Slot} {b : List (Option Buf)}
    (p : AllPassed P h i as vs s b) (sm : Same h h') : AllPassed P h' i as vs s b := by
  induction p with
  | nil => exact .nil
  | cons x _ ih => exact .cons (x.same sm) ih

theorem typed_same {h h' : Heap} {v : Sv} {p : BT → Nat → Prop} (s : Same h h')
    (x : ∃ b ob, v = .obj .arr (some b) ∧ h[b]? = some ob ∧ p ob.ty ob.dim) :
    ∃ b ob, v = .obj .arr (some b) ∧ h'[b]? = some ob ∧ p ob.ty ob.dim := by
  obtain ⟨b, ob, e, hb, hp⟩ := x
  obtain ⟨r, hb'⟩ := s b ob hb
  exact ⟨b, _, e, hb', hp⟩

theorem Accepts.same {W : World} {h h' : Heap} {a : Arg} {v : Sv} (x : Accepts W h a v) (s : Same h h') : Accepts W h' a v := by
  obtain ⟨ty, dim, ref⟩ := a
  have big : ∀ d, (v = .undef ∨ (∃ b ob, v = .obj .arr (some b) ∧ h[b]? = some ob ∧ W.isa ob.ty ob.dim ty d = true) ∨
      ∃ es, v = .aref es ∧ ∀ e ∈ es, Assignable W ty (d - 1) h e) →
      (v = .undef ∨ (∃ b ob, v = .obj .arr (some b) ∧ h'[b]? = some ob ∧ W.isa ob.ty ob.dim ty d = true) ∨
      ∃ es, v = .aref es ∧ ∀ e ∈ es, Assignable W ty (d - 1) h' e) := by
    intro d x
    rcases x with x | x | ⟨es, e, x⟩
    · exact .inl x
    · exact .inr (.inl (typed_same (p := fun t n => W.isa t n ty d = true) s x))
    · exact .inr (.inr ⟨es, e, fun y hy => (x y hy).same s⟩)
  match dim, ref, ty, x, big with
  | 0, false, .num _, x, _ => exact x
  | 0, false, .string, x, _ => exact x
  | 0, false, .any, x, _ => exact x
  | 0, false, .cls c, x, _ =>
    rcases x with x | ⟨b, ob, e, hb, hp⟩
    · exact .inl x
    · obtain ⟨r, hb'⟩ := s b ob hb
      exact .inr ⟨b, _, e, hb', hp⟩
  | 0, false, .mul _ _, x, _ => exact x
  | 0, true, .num _, x, _ => exact x
  | 0, true, .mul _ _, x, _ => exact x
  | 1, _, .num k, x, _ =>
    rcases x with x | x | x
    · exact .inl x
    · exact .inr (.inl (typed_same (p := fun t n => t = .num k ∧ n = 1) s x))
    · exact .inr (.inr x)
  | 1, _, .string, x, _ =>
    rcases x with x | x | x
    · exact .inl x
    · exact .inr (.inl (typed_same (p := fun t n => t = .string ∧ n = 1) s x))
    · exact .inr (.inr x)
  | 1, _, .mul fs k, x, _ =>
    rcases x with x | x | x
    · exact .inl x
    · exact .inr (.inl (typed_same (p := fun t n => W.isa t n (.mul fs k) 1 = true) s x))
    · exact .inr (.inr x)
  | 1, _, .any, x, big => exact big 1 x
  | 1, _, .cls c, x, big => exact big 1 x
  | d + 2, _, .num _, x, big => exact big (d + 2) x
  | d + 2, _, .string, x, big => exact big (d + 2) x
  | d + 2, _, .any, x, big => exact big (d + 2) x
  | d + 2, _, .cls _, x, big => exact big (d + 2) x
  | d + 2, _, .mul _ _, x, big => exact big (d + 2) x

/-! ## Strings -/

theorem strGot_of {P : Perl} {h : Heap} {v : Sv} {o : Option Nat} (k : Known h v) (x : StrIs P h' v o) (s : Same h' h) : StrGot P h v o := by
  rcases x with ⟨rfl, rfl⟩ | ⟨b, ob, hp, rfl, hb, h1, h2, h3⟩ | rfl
  · exact .undef
  · obtain ⟨r, hb'⟩ := s b ob hb
    exact .new hp hb' h1 h2 h3
  · cases o with
    | none => exact absurd rfl (k .str none rfl).1
    | some b => exact .same b

theorem newString_ok {P : Perl} {h : Heap} {v : Sv} (k : Known h v) (hl : (svPV P v).length < 2147483648)
    (hv : v = .undef ∨ Plain v ∨ ∃ o, v = .obj .str o) :
    ∃ w o h', newString P v h = (.ok w, h') ∧ objectOf w h' = (.ok o, h') ∧ Same h h' ∧ StrGot P h' v o := by
  rcases hv with rfl | hp | ⟨o, rfl⟩
  · exact ⟨_, none, h, rfl, rfl, .refl h, .undef⟩
  · exact ⟨_, _, _, newString_plain h hp hl, rfl, .append h _, .new hp (get_append_last ..) rfl rfl rfl⟩
  · cases o with
    | none => exact absurd rfl (k .str none rfl).1
    | some b => exact ⟨_, some b, h, rfl, rfl, .refl h, .same b⟩

theorem fromKeeps {h h' : Heap} {ob : Obj} (k : Keeps h.length (h ++ [ob]) h') : Same h h' := by
  intro a ob e
  have hlt := (List.getElem?_eq_some_iff.1 e).1
  exact k a ob (by omega) (by rw [List.getElem?_append_left hlt]; exact e)

theorem newStrArray_ok {P : Perl} {h : Heap} {es : List Sv} (hs : es.length < 2147483648) (hk : ∀ v ∈ es, Known h v)
    (hl : ∀ v ∈ es, (svPV P v).length < 2147483648) (hv : ∀ v ∈ es, v = .undef ∨ Plain v ∨ ∃ o, v = .obj .str o) :
    ∃ h' os r, newStrArray P (.aref es) h = (.ok (.obj .arr (some h.length)), h') ∧ Same h h' ∧
      h'[h.length]? = some ⟨.string, 1, es.length, .objs os, r⟩ ∧ AllRel (StrGot P h') es os := by
  let ob0 : Obj := { ty := .string, dim := 1, len := es.length, body := .objs (List.replicate es.length none), rc := 0 }
  have start : newStrArray P (.aref es) h = (do strLoop P h.length 0 es; bless .arr (some h.length) : X Sv) (h ++ [ob0]) := by
    show (if es.length < 2147483648 then _ else _ : X Sv) h = _
    rw [if_pos hs]
    rfl
  have e0 : (h ++ [ob0])[h.length]? = some ob0 := get_append_last ..
  obtain ⟨h1, os, r, e1, a1, k1, rel, l1⟩ := strLoop_ok (P := P) (os := []) e0 rfl (fun o ho => nomatch ho) (fun v hv' => by
    rcases hv v hv' with hc | hc | ⟨o, rfl⟩
    · exact .inl hc
    · exact .inr (.inl ⟨hc, hl v hv'⟩)
    · exact .inr (.inr ⟨o, rfl, ((hk _ hv') .str o rfl).2.mono (by simp)⟩))
  have hp1 : Points h1 (some h.length) := fun b hb => by cases hb; exact (List.getElem?_eq_some_iff.1 a1).1
  obtain ⟨h2, e2, s2, l2⟩ := bless_ok .arr hp1
  obtain ⟨r2, a2⟩ := s2 _ _ a1
  simp only [List.nil_append] at a2
  refine ⟨h2, os, r2, ?_, (fromKeeps k1).trans s2, a2, ?_⟩
  · rw [start, Prog.bind_ok (x := strLoop P h.length 0 es) e1]; exact e2
  · have sall := (fromKeeps k1).trans s2
    clear e2 a2 a1 e1 e0 start hp1 hs hl hv
    clear_value ob0
    induction rel with
    | nil => exact .nil
    | cons x _ ih =>
      exact .cons (strGot_of ((hk _ (by simp)).same sall) x.1 s2) (ih fun w hw => hk w (by simp [hw]))

theorem newStrArray_die {P : Perl} {h : Heap} {es : List Sv} (hs : es.length < 2147483648) (hk : ∀ v ∈ es, Known h v)
    (hl : ∀ v ∈ es, (svPV P v).length < 2147483648) (hv : ¬ ∀ v ∈ es, v = .undef ∨ Plain v ∨ ∃ o, v = .obj .str o) :
    ∃ m h', newStrArray P (.aref es) h = (.die m, h') ∧ Same h h' := by
  let ob0 : Obj := { ty := .string, dim := 1, len := es.length, body := .objs (List.replicate es.length none), rc := 0 }
  have start : newStrArray P (.aref es) h = (do strLoop P h.length 0 es; bless .arr (some h.length) : X Sv) (h ++ [ob0]) := by
    show (if es.length < 2147483648 then _ else _ : X Sv) h = _
    rw [if_pos hs]
    rfl
  have e0 : (h ++ [ob0])[h.length]? = some ob0 := get_append_last ..
  have href : ∀ v, ¬ (v = .undef ∨ Plain v ∨ ∃ o, v = .obj .str o) → refused v = true := by
    intro v hv
    cases v with
    | undef => exact absurd (.inl rfl) hv
    | int n => exact absurd (.inr (.inl (.int n))) hv
    | nv b => exact absurd (.inr (.inl (.nv b))) hv
    | pv s => exact absurd (.inr (.inl (.pv s))) hv
    | obj k o =>
      cases k with
      | str => exact absurd (.inr (.inr ⟨o, rfl⟩)) hv
      | _ => rfl
    | _ => rfl
  obtain ⟨w, hw⟩ := Classical.not_forall.1 hv
  obtain ⟨hw, hbad⟩ := Classical.not_imp.1 hw
  obtain ⟨m, h1, e1, k1⟩ := strLoop_die (P := P) (os := []) e0 rfl (fun o ho => nomatch ho)
    (fun v hv => by
      by_cases hc : v = .undef ∨ Plain v ∨ ∃ o, v = .obj .str o
      · refine .inl ?_
        rcases hc with hc | hc | ⟨o, rfl⟩
        · exact .inl hc
        · exact .inr (.inl ⟨hc, hl v hv⟩)
        · exact .inr (.inr ⟨o, rfl, ((hk _ hv) .str o rfl).2.mono (by simp)⟩)
      · exact .inr (href v hc))
    ⟨w, hw, href w hbad⟩
  exact ⟨m, h1, by rw [start]; exact Prog.bind_die e1, fromKeeps k1⟩

/-! ## Objects -/

theorem newObjArray_ok {W : World} {t : BT} {d : Nat} {h : Heap} {es : List Sv} (hs : es.length < 2147483648)
    (hv : ∀ v ∈ es, Assignable W t (d - 1) h v) :
    ∃ h' os r, newObjArray W t d (.aref es) h = (.ok (.obj .arr (some h.length)), h') ∧ Same h h' ∧
      h'[h.length]? = some ⟨t, d, es.length, .objs os, r⟩ ∧ AllRel ObjGot es os := by
  let ob0 : Obj := { ty := t, dim := d, len := es.length, body := .objs (List.replicate es.length none), rc := 0 }
  have start : newObjArray W t d (.aref es) h = (do objLoop W t d h.length 0 es; bless .arr (some h.length) : X Sv) (h ++ [ob0]) := by
    show (if es.length < 2147483648 then _ else _ : X Sv) h = _
    rw [if_pos hs]
    rfl
  have e0 : (h ++ [ob0])[h.length]? = some ob0 := get_append_last ..
  have hos : ∃ os, AllRel (fun v o => ObjElem W t (d - 1) (h ++ [ob0]) v o ∧ o ≠ some h.length) es os ∧ AllRel ObjGot es os := by
    clear start e0 hs
    clear_value ob0
    induction es with
    | nil => exact ⟨[], .nil, .nil⟩
    | cons v vs ih =>
      obtain ⟨os, r1, r2⟩ := ih fun w hw => hv w (by simp [hw])
      rcases hv v (by simp) with rfl | ⟨k, b, ob, rfl, hb, hi⟩
      · exact ⟨none :: os, .cons ⟨.undef, nofun⟩ r1, .cons .undef r2⟩
      · have hlt := (List.getElem?_eq_some_iff.1 hb).1
        exact ⟨some b :: os, .cons ⟨.obj k b ob (by rw [List.getElem?_append_left hlt]; exact hb) hi,
            (fun e => by cases e; omega)⟩ r1, .cons (.same k b) r2⟩
  obtain ⟨os, rel, got⟩ := hos
  obtain ⟨h1, r, e1, a1, k1, l1⟩ := objLoop_ok (os := []) e0 rfl (fun o ho => nomatch ho) rel
  have hp1 : Points h1 (some h.length) := fun b hb => by cases hb; exact (List.getElem?_eq_some_iff.1 a1).1
  obtain ⟨h2, e2, s2, l2⟩ := bless_ok .arr hp1
  obtain ⟨r2, a2⟩ := s2 _ _ a1
  simp only [List.nil_append] at a2
  exact ⟨h2, os, r2, by rw [start, Prog.bind_ok (x := objLoop W t d h.length 0 es) e1]; exact e2, (fromKeeps k1).trans s2, a2, got⟩

theorem newObjArray_die {W : World} {t : BT} {d : Nat} {h : Heap} {es : List Sv} (hs : es.length < 2147483648)
    (hk : ∀ v ∈ es, Known h v) (hv : ¬ ∀ v ∈ es, Assignable W t (d - 1) h v) :
    ∃ m h', newObjArray W t d (.aref es) h = (.die m, h') ∧ Same h h' := by
  let ob0 : Obj := { ty := t, dim := d, len := es.length, body := .objs (List.replicate es.length none), rc := 0 }
  have start : newObjArray W t d (.aref es) h = (do objLoop W t d h.length 0 es; bless .arr (some h.length) : X Sv) (h ++ [ob0]) := by
    show (if es.length < 2147483648 then _ else _ : X Sv) h = _
    rw [if_pos hs]
    rfl
  have e0 : (h ++ [ob0])[h.length]? = some ob0 := get_append_last ..
  obtain ⟨w, hw⟩ := Classical.not_forall.1 hv
  obtain ⟨hw, hbad⟩ := Classical.not_imp.1 hw
  obtain ⟨m, h1, e1, k1⟩ := objLoop_die (W := W) (t := t) (d := d) (os := []) e0 rfl (fun o ho => nomatch ho)
    (fun v hv k o e => ⟨((hk v hv) k o e).2.mono (by simp), (fun e' => by
      subst e'
      exact absurd ((hk v hv) k _ e).2 (fun p => by have := p _ rfl; omega))⟩)
    ⟨w, hw, fun o ho => hbad (by
      cases ho with
      | undef => exact .inl rfl
      | null k => exact absurd rfl ((hk _ hw) k none rfl).1
      | obj k b ob hb hi =>
        have hlt : b < h.length := ((hk _ hw) k (some b) rfl).2 b rfl
        rw [List.getElem?_append_left hlt] at hb
        exact .inr ⟨k, b, ob, rfl, hb, hi⟩)⟩
  exact ⟨m, h1, by rw [start]; exact Prog.bind_die e1, fromKeeps k1⟩

/-! ## Multi-numeric values -/

theorem showsFields_of {P : Perl} {k : NumK} {m : List (String × Sv)} : ∀ {fs : List String}, HasFields m fs →
    ShowsFields P k m fs (fs.zip ((mulVals P k fs m).map (svOf P k))) := by
  intro fs
  induction fs with
  | nil => intro _; exact .nil
  | cons f fs ih =>
    intro hm
    obtain ⟨x, hx, hxp⟩ := hm f (by simp)
    refine .cons hx ?_ (ih fun g hg => hm g (by simp [hg]))
    show Shows P false k x (svOf P k (cellOf P false k ((fetch m f).getD .undef)))
    have : fetch m f = some x := hx
    rw [this]
    exact shows_cell hxp

theorem fieldCells_ok {P : Perl} {k : NumK} {m : List (String × Sv)} : ∀ {fs : List String}, HasFields m fs →
    fieldCells P k m fs = .ok (mulVals P k fs m) := by
  intro fs
  induction fs with
  | nil => intro _; rfl
  | cons f fs ih =>
    intro hm
    obtain ⟨x, hx, hxp⟩ := hm f (by simp)
    have hf : fetch m f = some x := hx
    rw [fieldCells, hf, ih fun g hg => hm g (by simp [hg])]
    show Out.ok _ = Out.ok (cellOf P false k ((fetch m f).getD .undef) :: _)
    rw [hf]; rfl

theorem fieldCells_die {P : Perl} {k : NumK} {m : List (String × Sv)} : ∀ {fs : List String}, (∃ f ∈ fs, ∀ x ∈ m, x.1 ≠ f) →
    ∃ e, fieldCells P k m fs = .die e := by
  intro fs
  induction fs with
  | nil => intro ⟨f, hf, _⟩; cases hf
  | cons g fs ih =>
    intro ⟨f, hf, hx⟩
    rw [fieldCells]
    cases hg : fetch m g with
    | none => exact ⟨_, rfl⟩
    | some v =>
      rcases List.mem_cons.1 hf with rfl | hf
      · have h1 : (fetch m f).isSome := by rw [hg]; rfl
        simp only [fetch, Option.isSome_map, List.find?_isSome] at h1
        obtain ⟨x, hxm, hxe⟩ := h1
        exact absurd (by simpa using hxe) (hx x hxm)
      · obtain ⟨e, he⟩ := ih ⟨f, hf, hx⟩
        exact ⟨e, by simp only [he]; rfl⟩

theorem newMulArray_ok {P : Perl} {W : World} {fs : List String} {k : NumK} {h : Heap} {es : List Sv} (hs : es.length < 2147483648)
    (hv : ∀ v ∈ es, ∃ m, v = .href m ∧ HasFields m fs) :
    ∃ h' css, newMulArray P W fs k (.aref es) h = (.ok (.obj .arr (some h.length)), h') ∧ Same h h' ∧
      h'[h.length]? = some ⟨.mul fs k, 1, es.length, .nums k css.flatten, 1⟩ ∧
      AllRel (fun v cs => ∃ m, v = .href m ∧ cs.length = fs.length ∧ ShowsFields P k m fs (fs.zip (cs.map (svOf P k)))) es css := by
  let zeros : List (Cell k) := List.replicate (es.length * fs.length) 0
  let ob0 : Obj := { ty := .mul fs k, dim := 1, len := es.length, body := .nums k zeros, rc := 0 }
  have start : newMulArray P W fs k (.aref es) h = (do
      let cells ← Prog.lift (mulLoop P k fs 0 es zeros)
      update h.length fun ob => { ob with body := .nums k cells }
      bless .arr (some h.length) : X Sv) (h ++ [ob0]) := by
    show (if es.length < 2147483648 then _ else _ : X Sv) h = _
    rw [if_pos hs]
    rfl
  have hz : fs.length * 0 + fs.length * es.length = zeros.length := by simp [zeros, Nat.mul_comm]
  have hok : ∀ v ∈ es, mulOk fs v := by
    intro v hv'
    obtain ⟨m, rfl, hm⟩ := hv v hv'
    refine ⟨m, rfl, fun f hf => ?_⟩
    obtain ⟨x, hx, _⟩ := hm f hf
    rw [fetch, hx]; rfl
  have hl := mulLoop_ok (P := P) (k := k) (fs := fs) (i := 0) (cells := zeros) hok hz
  simp only [Nat.mul_zero, List.take_zero, List.nil_append, List.flatMap_def] at hl
  refine ⟨h ++ [⟨.mul fs k, 1, es.length, .nums k (es.map (mulOf P k fs)).flatten, 1⟩], es.map (mulOf P k fs), ?_, .append h _,
    get_append_last .., ?_⟩
  · rw [start]
    simp only [Prog.bind_apply, Prog.lift_apply, hl, update, get_append_last, set_append_last, bless, retain, Prog.pure_apply]
    rfl
  · clear start hz hl hok hs
    clear_value ob0 zeros
    induction es with
    | nil => exact .nil
    | cons v vs ih =>
      obtain ⟨m, rfl, hm⟩ := hv v (by simp)
      exact .cons ⟨m, rfl, mulVals_length .., showsFields_of hm⟩ (ih fun w hw => hv w (by simp [hw]))

/-! ## One argument -/

theorem isa_of {W : World} {h : Heap} {b : Nat} {ob : Obj} (e : h[b]? = some ob) (t : BT) (d : Nat) :
    isa W (some b) t d h = (.ok (W.isa ob.ty ob.dim t d), h) := by
  rw [isa, Prog.bind_ok (deref_some e)]; rfl

/-- `new_*_array` followed by `get_spvm_object`. -/
theorem arrayArg {x : X Sv} {h h' : Heap} {o : Option Nat} {w : Sv} (e : x h = (.ok w, h')) (eo : objectOf w h' = (.ok o, h')) :
    (do let w ← x
        let o ← objectOf w
        pure ([Slot.obj o], (none : Option Buf)) : X (List Slot × Option Buf)) h = (.ok ([.obj o], none), h') := by
  rw [Prog.bind_ok e, Prog.bind_ok eo]; rfl

theorem shows_plain {P : Perl} {k : NumK} : ∀ {es : List Sv}, (∀ e ∈ es, Plain e) →
    AllRel (Shows P false k) es ((es.map (cellOf P false k)).map (svOf P k)) := by
  intro es
  induction es with
  | nil => intro _; exact .nil
  | cons v vs ih => intro hp; exact .cons (shows_cell (.inl (hp v (by simp)))) (ih fun w hw => hp w (by simp [hw]))

theorem objArray_ok {P : Perl} {W : World} {h : Heap} {t : BT} {d : Nat} {r : Bool} {v : Sv} {i : Nat} (kn : KnownArg h v) (sm : SmallArg P v)
    (x : v = .undef ∨ (∃ b ob, v = .obj .arr (some b) ∧ h[b]? = some ob ∧ W.isa ob.ty ob.dim t (d + 1) = true) ∨
      ∃ es, v = .aref es ∧ ∀ e ∈ es, Assignable W t (d + 1 - 1) h e) :
    ∃ w o h', newObjArray W t (d + 1) v h = (.ok w, h') ∧ objectOf w h' = (.ok o, h') ∧ Same h h' ∧
      Passed P h' i ⟨t, d + 1, r⟩ v [.obj o] none := by
  rcases x with rfl | ⟨b, ob, rfl, hb, hi⟩ | ⟨es, rfl, hv⟩
  · exact ⟨_, none, h, rfl, rfl, .refl h, .arr (.inl ⟨rfl, rfl⟩)⟩
  · refine ⟨.obj .arr (some b), some b, h, ?_, rfl, .refl h, .arr (.inr ⟨b, rfl, rfl⟩)⟩
    rw [newObjArray, Prog.bind_ok (isa_of hb t (d + 1)), hi]; rfl
  · obtain ⟨h', os, rc, e, s, hb, got⟩ := newObjArray_ok (sm.2 es rfl).1 hv
    exact ⟨_, _, h', e, rfl, s, .objArr hb got⟩

theorem convertArg_ok {P : Perl} {W : World} {h : Heap} {a : Arg} {v : Sv} (i : Nat) (kn : KnownArg h v) (sm : SmallArg P v)
    (acc : Accepts W h a v) :
    ∃ s b h', convertArg P W a i v h = (.ok (s, b), h') ∧ Same h h' ∧ Passed P h' i a v s b := by
  obtain ⟨ty, dim, ref⟩ := a
  match dim, ref, ty, acc with
  | 0, false, .num k, acc =>
    refine ⟨_, _, h, ?_, .refl h, .num (shows_cell (.inl acc))⟩
    have := (isPlain_iff v).2 acc
    simp [convertArg, this, Prog.pure_apply]
  | 0, false, .string, acc =>
    obtain ⟨w, o, h', e, eo, s, g⟩ := newString_ok kn.1 sm.1 acc
    exact ⟨_, _, h', arrayArg e eo, s, .str g⟩
  | 0, false, .any, acc =>
    rcases acc with rfl | ⟨s, rfl⟩ | ⟨k, o, rfl⟩
    · exact ⟨_, _, h, rfl, .refl h, .any (.inl .undef)⟩
    · refine ⟨[.obj (some h.length)], none, h ++ [⟨.string, 0, s.length, .str s, 1⟩], ?_, .append h _,
        .any (.inr ⟨⟨s, rfl⟩, .new (.pv s) (get_append_last ..) rfl rfl rfl⟩)⟩
      have hl : s.length < 2147483648 := sm.1
      show (if s.length < 2147483648 then _ else _ : X (List Slot × Option Buf)) h = _
      rw [if_pos hl]
      simp only [Prog.bind_apply, alloc, bless, retain, update, get_append_last, set_append_last, Prog.pure_apply]
    · cases o with
      | none => exact absurd rfl (kn.1 k none rfl).1
      | some b => exact ⟨_, _, h, rfl, .refl h, .any (.inl (.same k b))⟩
  | 0, false, .cls c, acc =>
    rcases acc with rfl | ⟨b, ob, rfl, hb, hi⟩
    · exact ⟨_, _, h, rfl, .refl h, .cls .undef⟩
    · refine ⟨[.obj (some b)], none, h, ?_, .refl h, .cls (.same .cls b)⟩
      show (isa W (some b) (.cls c) 0 >>= _) h = _
      rw [Prog.bind_ok (isa_of hb _ _), hi]; rfl
  | 0, false, .mul fs k, acc =>
    obtain ⟨es, rfl, hf⟩ := acc
    refine ⟨_, _, h, ?_, .refl h, .mul (mulVals_length P k fs es) (showsFields_of hf)⟩
    show (Prog.lift (fieldCells P k es fs) >>= _) h = _
    rw [fieldCells_ok hf]; rfl
  | 0, true, .num k, acc =>
    obtain ⟨w, rfl, hw⟩ := acc
    refine ⟨_, _, h, ?_, .refl h, .refNum (shows_cell hw)⟩
    rcases hw with hw | rfl
    · cases hw <;> rfl
    · rfl
  | 0, true, .mul fs k, acc =>
    obtain ⟨es, rfl, hf⟩ := acc
    refine ⟨_, _, h, ?_, .refl h, .refMul (mulVals_length P k fs es) (showsFields_of hf)⟩
    show (Prog.lift (fieldCells P k es fs) >>= _) h = _
    rw [fieldCells_ok hf]; rfl
  | 1, _, .num k, acc =>
    rcases acc with rfl | ⟨b, ob, rfl, hb, ht, hd⟩ | ⟨es, rfl, hp⟩
    · exact ⟨_, _, h, rfl, .refl h, .arr (.inl ⟨rfl, rfl⟩)⟩
    · refine ⟨_, _, h, arrayArg (o := some b) (w := .obj .arr (some b)) ?_ rfl, .refl h, .arr (.inr ⟨b, rfl, rfl⟩)⟩
      show (deref (some b) >>= _) h = _
      rw [Prog.bind_ok (deref_some hb), if_pos ⟨ht, hd⟩]; rfl
    · exact ⟨_, _, _, arrayArg (newNumArray_ok h (sm.2 es rfl).1 fun v hv => (isPlain_iff v).2 (hp v hv)) rfl, .append h _,
        .numArr (get_append_last ..) (shows_plain hp)⟩
  | 1, _, .string, acc =>
    rcases acc with rfl | ⟨b, ob, rfl, hb, ht, hd⟩ | ⟨es, rfl, hp⟩
    · exact ⟨_, _, h, rfl, .refl h, .arr (.inl ⟨rfl, rfl⟩)⟩
    · refine ⟨_, _, h, arrayArg (o := some b) (w := .obj .arr (some b)) ?_ rfl, .refl h, .arr (.inr ⟨b, rfl, rfl⟩)⟩
      show (deref (some b) >>= _) h = _
      rw [Prog.bind_ok (deref_some hb), if_pos ⟨ht, hd⟩]; rfl
    · obtain ⟨h', os, r, e, s, hb, got⟩ := newStrArray_ok (sm.2 es rfl).1 (kn.2 es rfl) (sm.2 es rfl).2 hp
      exact ⟨_, _, h', arrayArg e rfl, s, .strArr hb got⟩
  | 1, _, .mul fs k, acc =>
    rcases acc with rfl | ⟨b, ob, rfl, hb, hi⟩ | ⟨es, rfl, hp⟩
    · exact ⟨_, _, h, rfl, .refl h, .arr (.inl ⟨rfl, rfl⟩)⟩
    · refine ⟨_, _, h, arrayArg (o := some b) (w := .obj .arr (some b)) ?_ rfl, .refl h, .arr (.inr ⟨b, rfl, rfl⟩)⟩
      show (isa W (some b) (.mul fs k) 1 >>= _) h = _
      rw [Prog.bind_ok (isa_of hb _ _), hi]; rfl
    · obtain ⟨h', css, e, s, hb, got⟩ := newMulArray_ok (P := P) (W := W) (k := k) (h := h) (sm.2 es rfl).1 hp
      exact ⟨_, _, h', arrayArg e rfl, s, .mulArr hb got⟩
  | 1, _, .any, acc =>
    obtain ⟨w, o, h', e, eo, s, p⟩ := objArray_ok (i := i) kn sm acc
    exact ⟨_, _, h', arrayArg e eo, s, p⟩
  | 1, _, .cls c, acc =>
    obtain ⟨w, o, h', e, eo, s, p⟩ := objArray_ok (i := i) kn sm acc
    exact ⟨_, _, h', arrayArg e eo, s, p⟩
  | d + 2, _, .num _, acc | d + 2, _, .string, acc | d + 2, _, .any, acc | d + 2, _, .cls _, acc | d + 2, _, .mul _ _, acc =>
    obtain ⟨w, o, h', e, eo, s, p⟩ := objArray_ok (i := i) kn sm acc
    exact ⟨_, _, h', arrayArg e eo, s, p⟩

theorem arrayArg_die {x : X Sv} {h h' : Heap} {m : String} (e : x h = (.die m, h')) :
    (do let w ← x
        let o ← objectOf w
        pure ([Slot.obj o], (none : Option Buf)) : X (List Slot × Option Buf)) h = (.die m, h') := Prog.bind_die e

theorem objArray_die {W : World} {h : Heap} {t : BT} {d : Nat} {v : Sv} (kn : KnownArg h v) (sm : SmallArg P v)
    (x : ¬ (v = .undef ∨ (∃ b ob, v = .obj .arr (some b) ∧ h[b]? = some ob ∧ W.isa ob.ty ob.dim t (d + 1) = true) ∨
      ∃ es, v = .aref es ∧ ∀ e ∈ es, Assignable W t (d + 1 - 1) h e)) :
    ∃ m h', newObjArray W t (d + 1) v h = (.die m, h') ∧ Same h h' := by
  cases v with
  | undef => exact absurd (.inl rfl) x
  | aref es =>
    exact newObjArray_die (sm.2 es rfl).1 (kn.2 es rfl) fun hv => x (.inr (.inr ⟨es, rfl, hv⟩))
  | obj k o =>
    cases k with
    | arr =>
      cases o with
      | none => exact absurd rfl (kn.1 .arr none rfl).1
      | some b =>
        have hb : h[b]? = some _ := List.getElem?_eq_getElem ((kn.1 .arr (some b) rfl).2 b rfl)
        refine ⟨": If it is an SPVM::BlessedObject::Array object, the type must be assignable", h, ?_, .refl h⟩
        rw [newObjArray, Prog.bind_ok (isa_of hb t (d + 1)), if_neg (fun hi => x (.inr (.inl ⟨b, _, rfl, hb, hi⟩)))]
        rfl
    | _ => exact ⟨_, h, rfl, .refl h⟩
  | _ => exact ⟨_, h, rfl, .refl h⟩

theorem convertArg_die {P : Perl} {W : World} {h : Heap} {a : Arg} {v : Sv} (i : Nat) (kn : KnownArg h v) (sm : SmallArg P v)
    (acc : Refuses W h a v) : ∃ m h', convertArg P W a i v h = (.die m, h') ∧ Same h h' := by
  obtain ⟨ty, dim, ref⟩ := a
  match dim, ref, ty, acc with
  | 0, false, .num k, acc =>
    refine ⟨"The argument must be a non-reference scalar", h, ?_, .refl h⟩
    show (if isPlain v = true then _ else _ : X (List Slot × Option Buf)) h = _
    rw [if_neg fun hp => acc ((isPlain_iff v).1 hp)]; rfl
  | 0, false, .string, acc =>
    have : newString P v h = (.die " cannnot be a reference", h) := by
      cases v with
      | undef => exact absurd (.inl rfl) acc
      | int n => exact absurd (.inr (.inl (.int n))) acc
      | nv b => exact absurd (.inr (.inl (.nv b))) acc
      | pv s => exact absurd (.inr (.inl (.pv s))) acc
      | obj k o =>
        cases k with
        | str => exact absurd (.inr (.inr ⟨o, rfl⟩)) acc
        | _ => rfl
      | _ => rfl
    exact ⟨_, h, arrayArg_die this, .refl h⟩
  | 0, false, .any, acc =>
    cases v with
    | undef => exact absurd (.inl rfl) acc
    | pv s => exact absurd (.inr (.inl ⟨s, rfl⟩)) acc
    | obj k o => exact absurd (.inr (.inr ⟨k, o, rfl⟩)) acc
    | _ => exact ⟨_, h, rfl, .refl h⟩
  | 0, false, .cls c, acc =>
    cases v with
    | undef => exact absurd (.inl rfl) acc
    | obj k o =>
      cases k with
      | cls =>
        cases o with
        | none => exact absurd rfl (kn.1 .cls none rfl).1
        | some b =>
          have hb : h[b]? = some _ := List.getElem?_eq_getElem ((kn.1 .cls (some b) rfl).2 b rfl)
          refine ⟨"The argument must be an SPVM::BlessedObject::Class object of an assignable type or undef", h, ?_, .refl h⟩
          show (isa W (some b) (.cls c) 0 >>= _) h = _
          rw [Prog.bind_ok (isa_of hb _ _), if_neg (fun hi => acc (.inr ⟨b, _, rfl, hb, hi⟩))]; rfl
      | _ => exact ⟨_, h, rfl, .refl h⟩
    | _ => exact ⟨_, h, rfl, .refl h⟩
  | 0, false, .mul fs k, acc =>
    cases v with
    | href es =>
      obtain ⟨e, he⟩ := fieldCells_die (P := P) (k := k) (acc.2 es rfl)
      refine ⟨e, h, ?_, .refl h⟩
      show (Prog.lift (fieldCells P k es fs) >>= _) h = _
      rw [he]; rfl
    | obj kd o => exact absurd rfl (acc.1 kd o)
    | _ => exact ⟨_, h, rfl, .refl h⟩
  | 0, true, .num k, acc =>
    cases v with
    | sref w =>
      cases w with
      | undef => exact absurd ⟨_, rfl, .inr rfl⟩ acc
      | int n => exact absurd ⟨_, rfl, .inl (.int n)⟩ acc
      | nv n => exact absurd ⟨_, rfl, .inl (.nv n)⟩ acc
      | pv n => exact absurd ⟨_, rfl, .inl (.pv n)⟩ acc
      | _ => exact ⟨_, h, rfl, .refl h⟩
    | _ => exact ⟨_, h, rfl, .refl h⟩
  | 0, true, .mul fs k, acc =>
    cases v with
    | sref w =>
      cases w with
      | href es =>
        obtain ⟨e, he⟩ := fieldCells_die (P := P) (k := k) (acc.2 es rfl)
        refine ⟨e, h, ?_, .refl h⟩
        show (Prog.lift (fieldCells P k es fs) >>= _) h = _
        rw [he]; rfl
      | obj kd o => exact absurd rfl (acc.1 kd o)
      | _ => exact ⟨_, h, rfl, .refl h⟩
    | _ => exact ⟨_, h, rfl, .refl h⟩
  | 1, _, .num k, acc =>
    cases v with
    | undef => exact absurd (.inl rfl) acc
    | aref es =>
      obtain ⟨m, e⟩ := newNumArray_die (P := P) (u := false) (k := k) h (sm.2 es rfl).1
        (fun hp => acc (.inr (.inr ⟨es, rfl, fun e he => (isPlain_iff e).1 (hp e he)⟩)))
      exact ⟨m, _, arrayArg_die e, .append h _⟩
    | obj kd o =>
      cases kd with
      | arr =>
        cases o with
        | none => exact absurd rfl (kn.1 .arr none rfl).1
        | some b =>
          have hb : h[b]? = some _ := List.getElem?_eq_getElem ((kn.1 .arr (some b) rfl).2 b rfl)
          refine ⟨": If it is an SPVM::BlessedObject::Array object, the type must be the numeric array type", h, arrayArg_die ?_, .refl h⟩
          show (deref (some b) >>= _) h = _
          rw [Prog.bind_ok (deref_some hb), if_neg (fun hi => acc (.inr (.inl ⟨b, _, rfl, hb, hi⟩)))]; rfl
      | _ => exact ⟨_, h, rfl, .refl h⟩
    | _ => exact ⟨_, h, rfl, .refl h⟩
  | 1, _, .string, acc =>
    cases v with
    | undef => exact absurd (.inl rfl) acc
    | aref es =>
      obtain ⟨m, h', e, s⟩ := newStrArray_die (P := P) (h := h) (sm.2 es rfl).1 (kn.2 es rfl) (sm.2 es rfl).2
        (fun hp => acc (.inr (.inr ⟨es, rfl, hp⟩)))
      exact ⟨m, _, arrayArg_die e, s⟩
    | obj kd o =>
      cases kd with
      | arr =>
        cases o with
        | none => exact absurd rfl (kn.1 .arr none rfl).1
        | some b =>
          have hb : h[b]? = some _ := List.getElem?_eq_getElem ((kn.1 .arr (some b) rfl).2 b rfl)
          refine ⟨": If it is an SPVM::BlessedObject::Array object, the type must be the string[] type", h, arrayArg_die ?_, .refl h⟩
          show (deref (some b) >>= _) h = _
          rw [Prog.bind_ok (deref_some hb), if_neg (fun hi => acc (.inr (.inl ⟨b, _, rfl, hb, hi⟩)))]; rfl
      | _ => exact ⟨_, h, rfl, .refl h⟩
    | _ => exact ⟨_, h, rfl, .refl h⟩
  | 1, _, .mul fs k, acc =>
    obtain ⟨es, rfl, hno, v, hv, hbad⟩ := acc
    obtain ⟨e, hl⟩ := mulLoop_die (P := P) (k := k) (fs := fs) (vs := es) (i := 0) (cells := List.replicate (es.length * fs.length) 0)
      (fun hall => by
        obtain ⟨m, hm, hf⟩ := hall v hv
        obtain ⟨f, hf', hx⟩ := hbad m hm
        have h1 := hf f hf'
        simp only [fetch, Option.isSome_map, List.find?_isSome] at h1
        obtain ⟨x, hxm, hxe⟩ := h1
        exact hx x hxm (by simpa using hxe)) hno (by simp [Nat.mul_comm])
    refine ⟨e, h ++ [⟨.mul fs k, 1, es.length, .nums k (List.replicate (es.length * fs.length) 0), 0⟩], arrayArg_die ?_, .append h _⟩
    show (if es.length < 2147483648 then _ else _ : X Sv) h = _
    rw [if_pos (sm.2 es rfl).1]
    simp only [Prog.bind_apply, alloc, Prog.lift_apply, hl]
  | 1, _, .any, acc | 1, _, .cls _, acc =>
    obtain ⟨m, h', e, s⟩ := objArray_die (P := P) kn sm acc
    exact ⟨m, h', arrayArg_die e, s⟩
  | d + 2, _, .num _, acc | d + 2, _, .string, acc | d + 2, _, .any, acc | d + 2, _, .cls _, acc | d + 2, _, .mul _ _, acc =>
    obtain ⟨m, h', e, s⟩ := objArray_die (P := P) kn sm acc
    exact ⟨m, h', arrayArg_die e, s⟩

/-! ## All arguments -/

theorem same_back {h h' : Heap} (s : Same h h') {b : Nat} {ob' : Obj} (hb : b < h.length) (e : h'[b]? = some ob') :
    ∃ ob, h[b]? = some ob ∧ ob.ty = ob'.ty ∧ ob.dim = ob'.dim := by
  have e0 : h[b]? = some (h[b]'hb) := List.getElem?_eq_getElem hb
  obtain ⟨r, e1⟩ := s b _ e0
  rw [e] at e1
  cases e1
  exact ⟨_, e0, rfl, rfl⟩

theorem typed_back {h h' : Heap} {v : Sv} {p : BT → Nat → Prop} (s : Same h h') (kn : Known h v)
    (x : ∃ b ob, v = .obj .arr (some b) ∧ h'[b]? = some ob ∧ p ob.ty ob.dim) :
    ∃ b ob, v = .obj .arr (some b) ∧ h[b]? = some ob ∧ p ob.ty ob.dim := by
  obtain ⟨b, ob, e, hb, hp⟩ := x
  obtain ⟨ob', hb', ht, hd⟩ := same_back s ((kn .arr (some b) e).2 b rfl) hb
  exact ⟨b, ob', e, hb', by rw [ht, hd]; exact hp⟩

theorem Accepts.back {W : World} {h h' : Heap} {a : Arg} {v : Sv} (x : Accepts W h' a v) (kn : KnownArg h v) (s : Same h h') :
    Accepts W h a v := by
  obtain ⟨ty, dim, ref⟩ := a
  have big : ∀ d, (v = .undef ∨ (∃ b ob, v = .obj .arr (some b) ∧ h'[b]? = some ob ∧ W.isa ob.ty ob.dim ty d = true) ∨
      ∃ es, v = .aref es ∧ ∀ e ∈ es, Assignable W ty (d - 1) h' e) →
      (v = .undef ∨ (∃ b ob, v = .obj .arr (some b) ∧ h[b]? = some ob ∧ W.isa ob.ty ob.dim ty d = true) ∨
      ∃ es, v = .aref es ∧ ∀ e ∈ es, Assignable W ty (d - 1) h e) := by
    intro d x
    rcases x with x | x | ⟨es, e, x⟩
    · exact .inl x
    · exact .inr (.inl (typed_back (p := fun t n => W.isa t n ty d = true) s kn.1 x))
    · refine .inr (.inr ⟨es, e, fun y hy => ?_⟩)
      rcases x y hy with z | ⟨k, b, ob, ey, hb, hi⟩
      · exact .inl z
      · obtain ⟨ob', hb', ht, hd⟩ := same_back s ((kn.2 es e y hy k (some b) ey).2 b rfl) hb
        exact .inr ⟨k, b, ob', ey, hb', by rw [ht, hd]; exact hi⟩
  match dim, ref, ty, x, big with
  | 0, false, .num _, x, _ => exact x
  | 0, false, .string, x, _ => exact x
  | 0, false, .any, x, _ => exact x
  | 0, false, .cls c, x, _ =>
    rcases x with x | ⟨b, ob, e, hb, hp⟩
    · exact .inl x
    · obtain ⟨ob', hb', ht, hd⟩ := same_back s ((kn.1 .cls (some b) e).2 b rfl) hb
      exact .inr ⟨b, ob', e, hb', by rw [ht, hd]; exact hp⟩
  | 0, false, .mul _ _, x, _ => exact x
  | 0, true, .num _, x, _ => exact x
  | 0, true, .mul _ _, x, _ => exact x
  | 1, _, .num k, x, _ =>
    rcases x with x | x | x
    · exact .inl x
    · exact .inr (.inl (typed_back (p := fun t n => t = .num k ∧ n = 1) s kn.1 x))
    · exact .inr (.inr x)
  | 1, _, .string, x, _ =>
    rcases x with x | x | x
    · exact .inl x
    · exact .inr (.inl (typed_back (p := fun t n => t = .string ∧ n = 1) s kn.1 x))
    · exact .inr (.inr x)
  | 1, _, .mul fs k, x, _ =>
    rcases x with x | x | x
    · exact .inl x
    · exact .inr (.inl (typed_back (p := fun t n => W.isa t n (.mul fs k) 1 = true) s kn.1 x))
    · exact .inr (.inr x)
  | 1, _, .any, x, big => exact big 1 x
  | 1, _, .cls c, x, big => exact big 1 x
  | d + 2, _, .num _, x, big => exact big (d + 2) x
  | d + 2, _, .string, x, big => exact big (d + 2) x
  | d + 2, _, .any, x, big => exact big (d + 2) x
  | d + 2, _, .cls _, x, big => exact big (d + 2) x
  | d + 2, _, .mul _ _, x, big => exact big (d + 2) x

theorem Refuses.same {W : World} {h h' : Heap} {a : Arg} {v : Sv} (x : Refuses W h a v) (kn : KnownArg h v) (s : Same h h') :
    Refuses W h' a v := by
  obtain ⟨ty, dim, ref⟩ := a
  have no : ¬ Accepts W h ⟨ty, dim, ref⟩ v → ¬ Accepts W h' ⟨ty, dim, ref⟩ v := fun n a => n (a.back kn s)
  match dim, ref, ty, x, no with
  | 0, false, .num _, x, no | 0, false, .string, x, no | 0, false, .any, x, no | 0, false, .cls _, x, no | 0, true, .num _, x, no => exact no x
  | 0, false, .mul _ _, x, _ | 0, true, .mul _ _, x, _ | 1, _, .mul _ _, x, _ => exact x
  | 1, _, .num _, x, no | 1, _, .string, x, no | 1, _, .any, x, no | 1, _, .cls _, x, no => exact no x
  | d + 2, _, .num _, x, no | d + 2, _, .string, x, no | d + 2, _, .any, x, no | d + 2, _, .cls _, x, no
  | d + 2, _, .mul _ _, x, no => exact no x

theorem convertArgs_ok {P : Perl} {W : World} : ∀ {as : List Arg} {vs : List Sv} {h : Heap} (i : Nat), vs.length ≤ as.length →
    (∀ j a, as[j]? = some a → 1 < a.dim → vs.length ≤ j + 1) →
    (∀ (j : Nat) a v, as[j]? = some a → vs[j]? = some v → Accepts W h a v) →
    (∀ v ∈ vs, KnownArg h v) → (∀ v ∈ vs, SmallArg P v) →
    ∃ ss bs h', convertArgs P W i as vs h = (.ok (ss, bs), h') ∧ Same h h' ∧ AllPassed P h' i as vs ss bs := by
  intro as
  induction as with
  | nil =>
    intro vs h i hl _ _ _ _
    cases vs with
    | nil => exact ⟨_, _, h, rfl, .refl h, .nil⟩
    | cons _ _ => exact absurd hl (by simp)
  | cons a as ih =>
    intro vs h i hl hd hacc hk hs
    cases vs with
    | nil => exact ⟨_, _, h, rfl, .refl h, .nil⟩
    | cons v vs =>
      obtain ⟨s, b, h1, e1, s1, p1⟩ := convertArg_ok (P := P) (W := W) (a := a) i (hk v (by simp)) (hs v (by simp))
        (hacc 0 a v rfl rfl)
      by_cases hdim : 1 < a.dim
      · have hnil : vs = [] := by
          have := hd 0 a rfl hdim
          cases vs with
          | nil => rfl
          | cons _ _ => simp at this
        subst hnil
        refine ⟨s, [b], h1, ?_, s1, by simpa using AllPassed.cons p1 .nil⟩
        rw [convertArgs, Prog.bind_ok e1, if_pos hdim]; rfl
      · obtain ⟨ss, bs, h2, e2, s2, p2⟩ := ih (vs := vs) (h := h1) (i + 1) (by simpa using hl)
          (fun j c hc h1c => by have := hd (j + 1) c hc h1c; simpa using this)
          (fun j c w hc hw => (hacc (j + 1) c w hc hw).same s1)
          (fun w hw => (hk w (by simp [hw])).same s1) (fun w hw => hs w (by simp [hw]))
        refine ⟨s ++ ss, b :: bs, h2, ?_, s1.trans s2, .cons (p1.same s2) p2⟩
        rw [convertArgs, Prog.bind_ok e1, if_neg hdim, Prog.bind_ok e2]; rfl

theorem convertArgs_die {P : Perl} {W : World} : ∀ {as : List Arg} {vs : List Sv} {h : Heap} {j : Nat} {a : Arg} {v : Sv} (i : Nat),
    as[j]? = some a → vs[j]? = some v → Refuses W h a v →
    (∀ j' a', j' < j → as[j']? = some a' → a'.dim ≤ 1) →
    (∀ (j' : Nat) a v, j' < j → as[j']? = some a → vs[j']? = some v → Accepts W h a v) →
    (∀ v ∈ vs, KnownArg h v) → (∀ v ∈ vs, SmallArg P v) →
    ∃ m h', convertArgs P W i as vs h = (.die m, h') ∧ Same h h' := by
  intro as
  induction as with
  | nil => intro vs h j a v i ha; simp at ha
  | cons c as ih =>
    intro vs h j a v i ha hv href hdim hacc hk hs
    cases vs with
    | nil => simp at hv
    | cons w vs =>
      cases j with
      | zero =>
        cases ha; cases hv
        obtain ⟨m, h', e, s⟩ := convertArg_die i (hk v (by simp)) (hs v (by simp)) href
        exact ⟨m, h', by rw [convertArgs]; exact Prog.bind_die e, s⟩
      | succ j =>
        obtain ⟨s, b, h1, e1, s1, p1⟩ := convertArg_ok (P := P) (W := W) (a := c) i (hk w (by simp)) (hs w (by simp))
          (hacc 0 c w (by omega) rfl rfl)
        have hmem : v ∈ vs := List.mem_of_getElem? hv
        obtain ⟨m, h2, e2, s2⟩ := ih (vs := vs) (h := h1) (j := j) (a := a) (v := v) (i + 1) ha hv
          (href.same (hk v (by simp [hmem])) s1)
          (fun j' a' hj ha' => hdim (j' + 1) a' (by omega) ha')
          (fun j' a' v' hj ha' hv' => (hacc (j' + 1) a' v' (by omega) ha' hv').same s1)
          (fun x hx => (hk x (by simp [hx])).same s1) (fun x hx => hs x (by simp [hx]))
        have hc := hdim 0 c (by omega) rfl
        refine ⟨m, h2, ?_, s1.trans s2⟩
        rw [convertArgs, Prog.bind_ok e1, if_neg (by omega)]
        exact Prog.bind_die e2

/-! ## The value returned -/

theorem retFields_ok {P : Perl} {k : NumK} {st : Nat → Slot} : ∀ {fs : List String} {cs : List (Cell k)} (i : Nat),
    cs.length = fs.length → (∀ j c, cs[j]? = some c → st (i + j) = .num k c) →
    retFields P k st i fs = .ok (fs.zip (cs.map (svOf P k))) := by
  intro fs
  induction fs with
  | nil => intro cs i _ _; rfl
  | cons f fs ih =>
    intro cs i hl hst
    cases cs with
    | nil => simp at hl
    | cons c cs =>
      have h0 : st i = .num k c := hst 0 c rfl
      rw [retFields, h0, ih (cs := cs) (i + 1) (by simpa using hl)
        (fun j x hx => by have := hst (j + 1) x hx; rw [← this]; congr 1; omega)]
      simp [slotNum, Out.bind]

theorem retSv_ok {P : Perl} {h : Heap} {ret : Option (BT × Nat)} {st : Nat → Slot} (g : GivesBack h ret st) :
    ∃ r h', retSv P ret st h = (.ok r, h') ∧ Same h h' ∧ Returned P h ret st r := by
  have object : ∀ {t : BT} {d : Nat} {kd : Kind}, (∃ o, st 0 = .obj o ∧ ∀ b, o = some b → ∃ ob, h[b]? = some ob) →
      (d = 0 → ∀ k, t ≠ .num k) → (d = 0 → ∀ fs k, t ≠ .mul fs k) → (∀ ob, RetKind ob (t, d) kd) →
      ∃ r h', (do let o ← Prog.lift (slotObj (st 0))
                  let w ← blessOr kd o
                  pure (some w) : X (Option Sv)) h = (.ok r, h') ∧ Same h h' ∧ Returned P h (some (t, d)) st r := by
    intro t d kd ⟨o, e, hb⟩ h1 h2 hk
    cases o with
    | none => exact ⟨some .undef, h, by rw [e]; rfl, .refl h, .undef h1 h2 e⟩
    | some b =>
      obtain ⟨ob, hb⟩ := hb b rfl
      obtain ⟨h', eb, s, _⟩ := bless_ok (h := h) (o := some b) kd (fun c hc => by cases hc; exact (List.getElem?_eq_some_iff.1 hb).1)
      refine ⟨some (.obj kd (some b)), h', ?_, s, .obj e hb (hk ob)⟩
      rw [e]
      show (bless kd (some b) >>= fun w => pure (some w)) h = _
      rw [Prog.bind_ok eb]; rfl
  match ret, g with
  | none, _ => exact ⟨_, h, rfl, .refl h, .void⟩
  | some (.num k, 0), ⟨c, e⟩ =>
    refine ⟨_, h, ?_, .refl h, .num e⟩
    show (Prog.lift (slotNum k (st 0)) >>= _) h = _
    rw [e]
    simp [slotNum, Prog.bind_apply, Prog.lift_apply, Prog.pure_apply]
  | some (.mul fs k, 0), ⟨cs, hl, e⟩ =>
    refine ⟨_, h, ?_, .refl h, .mul hl e⟩
    show (Prog.lift (retFields P k st 0 fs) >>= _) h = _
    rw [retFields_ok 0 hl (by simpa using e)]; rfl
  | some (.string, 0), g => exact object g (fun _ _ x => nomatch x) (fun _ _ _ x => nomatch x) fun ob => .str
  | some (.cls c, 0), g => exact object g (fun _ _ x => nomatch x) (fun _ _ _ x => nomatch x) fun ob => .cls c
  | some (.any, 0), ⟨o, e, hb⟩ =>
    cases o with
    | none =>
      refine ⟨some .undef, h, ?_, .refl h, .undef (fun _ _ x => nomatch x) (fun _ _ _ x => nomatch x) e⟩
      show (Prog.lift (slotObj (st 0)) >>= _) h = _
      rw [e]; rfl
    | some b =>
      obtain ⟨ob, hb⟩ := hb b rfl
      have hkind : KindOf ob (if 0 < ob.dim then .arr else match ob.ty with | .string => .str | _ => .cls) := by
        by_cases hd : 0 < ob.dim
        · rw [if_pos hd]; exact .arr hd
        · rw [if_neg hd]
          have h0 : ob.dim = 0 := by omega
          cases ht : ob.ty with
          | string => exact .str h0 ht
          | _ => exact .cls h0 (by rw [ht]; exact fun x => nomatch x)
      obtain ⟨h', eb, s, _⟩ := bless_ok (h := h) (o := some b)
        (if 0 < ob.dim then .arr else match ob.ty with | .string => .str | _ => .cls)
        (fun c hc => by cases hc; exact (List.getElem?_eq_some_iff.1 hb).1)
      refine ⟨_, h', ?_, s, .obj e hb (.any hkind)⟩
      show (Prog.lift (slotObj (st 0)) >>= _) h = _
      rw [e]
      show (deref (some b) >>= _) h = _
      rw [Prog.bind_ok (deref_some hb)]
      exact Prog.bind_ok eb
  | some (t, d + 1), g =>
    have g' : ∃ o, st 0 = .obj o ∧ ∀ b, o = some b → ∃ ob, h[b]? = some ob := by cases t <;> exact g
    exact object g' (fun x => nomatch x) (fun x => nomatch x) fun ob => .arr t d

/-! ## References -/

theorem fetch_store (es : List (String × Sv)) (f g : String) (v : Sv) :
    fetch (store es f v) g = if g = f then some v else fetch es g := by
  have hmap : ∀ es : List (String × Sv), fetch (es.map fun x => if x.1 == f then (x.1, v) else x) g =
      if g = f then (if es.any (·.1 == f) then some v else none) else fetch es g := by
    intro es
    induction es with
    | nil => by_cases h : g = f <;> simp [h, fetch]
    | cons x xs ih =>
      simp only [fetch] at ih ⊢
      rw [List.map_cons, List.find?_cons]
      by_cases hx : x.1 = f
      · by_cases hg : g = f
        · subst hg; simp [hx]
        · have : (x.1 == g) = false := by rw [hx]; simpa using fun h => hg h.symm
          simp only [hx, beq_self_eq_true, if_true]
          have : (f == g) = false := by simpa using fun h => hg h.symm
          rw [this, ih, if_neg hg, if_neg hg]
          rw [List.find?_cons, hx, this]
      · have hxf : (x.1 == f) = false := by simpa using hx
        simp only [hxf, Bool.false_eq_true, if_false]
        by_cases hg : x.1 = g
        · have : g ≠ f := fun h => hx (hg.trans h)
          simp [hg, this]
        · have : (x.1 == g) = false := by simpa using hg
          rw [this, ih, List.find?_cons, this, List.any_cons, hxf, Bool.false_or]
  unfold store
  by_cases ha : es.any (·.1 == f)
  · rw [if_pos ha, hmap]
    by_cases hg : g = f
    · simp [hg, ha]
    · simp [hg]
  · rw [if_neg ha]
    simp only [fetch, List.find?_append]
    by_cases hg : g = f
    · subst hg
      have : es.find? (·.1 == g) = none := by
        rw [List.find?_eq_none]
        intro x hx hxe
        exact ha (List.any_eq_true.2 ⟨x, hx, hxe⟩)
      simp [this]
    · have : (f == g) = false := by simpa using fun h => hg h.symm
      rw [if_neg hg]
      simp [this]

theorem storeFields_ok {P : Perl} {k : NumK} {cs : List (Cell k)} : ∀ {fs : List String} {es : List (String × Sv)} (i : Nat),
    fs.Nodup → i + fs.length ≤ cs.length →
    ∃ es', storeFields P k cs i fs es = .ok es' ∧ (∀ f, f ∉ fs → fetch es' f = fetch es f) ∧
      ∀ (j : Nat) f c, fs[j]? = some f → cs[i + j]? = some c → fetch es' f = some (svOf P k c) := by
  intro fs
  induction fs with
  | nil => intro es i _ _; exact ⟨es, rfl, fun _ _ => rfl, fun j f c h => by simp at h⟩
  | cons f fs ih =>
    intro es i hn hl
    simp only [List.length_cons] at hl
    have hi : cs[i]? = some (cs[i]'(by omega)) := List.getElem?_eq_getElem (by omega)
    obtain ⟨es', e, h1, h2⟩ := ih (es := store es f (svOf P k (cs[i]'(by omega)))) (i + 1) (List.nodup_cons.1 hn).2 (by omega)
    refine ⟨es', ?_, ?_, ?_⟩
    · rw [storeFields]
      simp only [cellAt, hi, Out.bind]
      exact e
    · intro g hg
      rw [h1 g (fun x => hg (by simp [x])), fetch_store, if_neg (fun x => hg (by simp [x]))]
    · intro j g c hj hc
      cases j with
      | zero =>
        cases hj
        rw [h1 f (List.nodup_cons.1 hn).1, fetch_store, if_pos rfl]
        rw [Nat.add_zero, hi] at hc
        cases hc; rfl
      | succ j =>
        exact h2 j g c hj (by rw [← hc]; congr 1; omega)

theorem restore_ok {P : Perl} {h : Heap} {bufs : List (Option Buf)} {i : Nat} {as : List Arg} {vs : List Sv} {ss : List Slot}
    {bs : List (Option Buf)} (p : AllPassed P h i as vs ss bs)
    (hb : ∀ (j : Nat) b, bs[j]? = some b → ∃ b', bufs[i + j]? = some b' ∧ SameShape b b')
    (hr : ∀ (j : Nat) a, as[j]? = some a → a.ref = true → j < vs.length ∧ a.dim = 0) (hf : ∀ a ∈ as, DistinctFields a) :
    ∃ ws, restore P false bufs i as vs = .ok ws ∧ AllRestored P bufs i as vs ws := by
  induction p with
  | @nil i as =>
    refine ⟨[], ?_, .nil⟩
    clear hb hf
    induction as generalizing i with
    | nil => rfl
    | cons a as ih =>
      have ha : a.ref = false := by
        cases hx : a.ref with
        | false => rfl
        | true => exact absurd (hr 0 a rfl hx).1 (by simp)
      rw [restore, ha]
      simp only [Bool.false_eq_true, if_false]
      exact ih (fun j c hc hc' => absurd (hr (j + 1) c hc hc').1 (by simp))
  | @cons i a as v vs s ss b bs x _ ih =>
    obtain ⟨ws, e, r⟩ := ih (fun j c hc => by have := hb (j + 1) c hc; rw [show i + 1 + j = i + (j + 1) by omega]; exact this)
      (fun j c hc hc' => by have := hr (j + 1) c hc hc'; simpa using this) (fun c hc => hf c (by simp [hc]))
    obtain ⟨b', eb, sh⟩ := hb 0 b rfl
    rw [Nat.add_zero] at eb
    cases ha : a.ref with
    | false =>
      refine ⟨v :: ws, ?_, .cons (.keep ha) r⟩
      rw [restore, ha, e]; rfl
    | true =>
      have hd := (hr 0 a rfl ha).2
      have one : ∃ w, restoreOne P a.ty bufs[i]? v = .ok w ∧ Restored P a bufs[i]? v w := by
        rw [eb]
        cases x with
        | @refNum k v c hs =>
          cases b' with
          | none => exact sh.elim
          | some b' =>
            obtain ⟨k', cells⟩ := b'
            obtain ⟨h1, h2⟩ := sh
            simp only at h1 h2
            subst h1
            cases cells with
            | nil => simp at h2
            | cons c' cs => exact ⟨_, by simp [restoreOne, cellAt, Out.bind], .num⟩
        | @refMul fs k es cs hl hs =>
          cases b' with
          | none => exact sh.elim
          | some b' =>
            obtain ⟨k', cells⟩ := b'
            obtain ⟨h1, h2⟩ := sh
            simp only at h1 h2
            subst h1
            obtain ⟨es', e, f1, f2⟩ := storeFields_ok (P := P) (cs := cells) (es := es) 0 (hf _ (List.mem_cons_self ..) fs k rfl)
              (by omega)
            exact ⟨.sref (.href es'), by simp only [restoreOne, if_true]; rw [e]; rfl, .mul ⟨f1, fun j f c hj hc => f2 j f c hj (by simpa using hc)⟩⟩
        | num | str | any | cls | mul => cases ha
        | arr | numArr | strArr | mulArr | objArr => simp at hd
      obtain ⟨w, e1, r1⟩ := one
      refine ⟨w :: ws, ?_, .cons r1 r⟩
      rw [restore, ha]
      simp only [if_true]
      rw [e1, e]; rfl

theorem noRef {P : Perl} {h : Heap} {bufs : List (Option Buf)} {i : Nat} {as : List Arg} {vs : List Sv} {ss : List Slot}
    {bs : List (Option Buf)} (p : AllPassed P h i as vs ss bs) (hr : as.any (·.ref) = false) : AllRestored P bufs i as vs vs := by
  induction p with
  | nil => exact .nil
  | cons x _ ih =>
    rw [List.any_cons, Bool.or_eq_false_iff] at hr
    exact .cons (.keep hr.1) (ih hr.2)

/-! ## The name -/

theorem lastColon_none : ∀ {l : List UInt8}, lastColon l = none ↔ 58 ∉ l := by
  intro l
  induction l with
  | nil => simp [lastColon]
  | cons c cs ih =>
    rw [lastColon]
    cases h : lastColon cs with
    | some j =>
      have : ¬ (58 ∉ cs) := fun x => by rw [ih.2 x] at h; cases h
      simp only [List.mem_cons, not_or]
      exact ⟨nofun, fun x => absurd x.2 this⟩
    | none =>
      have := ih.1 h
      by_cases hc : c = 58
      · simp [hc]
      · simp [hc, this, Ne.symm hc]

theorem lastColon_some : ∀ {l : List UInt8} {p : Nat}, lastColon l = some p ↔ ∃ a b, l = a ++ 58 :: b ∧ a.length = p ∧ 58 ∉ b := by
  intro l
  induction l with
  | nil => intro p; simp [lastColon]
  | cons c cs ih =>
    intro p
    rw [lastColon]
    cases h : lastColon cs with
    | some j =>
      obtain ⟨a, b, e, hl, hb⟩ := ih.1 h
      constructor
      · intro hp; cases hp
        exact ⟨c :: a, b, by rw [e]; rfl, by simp [hl], hb⟩
      · rintro ⟨a', b', e', hl', hb'⟩
        cases a' with
        | nil =>
          simp only [List.nil_append, List.cons.injEq] at e'
          rw [← e'.2, e] at hb'
          simp at hb'
        | cons x a' =>
          simp only [List.cons_append, List.cons.injEq] at e'
          have := ih.2 ⟨a', b', e'.2, rfl, hb'⟩
          rw [h] at this
          cases this
          simp at hl'
          simp [hl']
    | none =>
      have hn := lastColon_none.1 h
      constructor
      · intro hp
        by_cases hc : c = 58
        · simp [hc] at hp
          exact ⟨[], cs, by simp [hc], by simpa using hp, hn⟩
        · simp [hc] at hp
      · rintro ⟨a', b', e', hl', hb'⟩
        cases a' with
        | nil =>
          simp only [List.nil_append, List.cons.injEq] at e'
          simp [e'.1, ← hl']
        | cons x a' =>
          simp only [List.cons_append, List.cons.injEq] at e'
          exact absurd (by rw [e'.2]; simp) hn

end SPVM.Exch
