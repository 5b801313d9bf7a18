import Verif.Model.Sort
import Verif.Lemmas.Array
import Verif.Spec.Sort
set_option linter.unusedSimpArgs false
namespace SPVM
namespace MSort
open Spec.Sort (Preorder Sorted same StableSort)
variable {α τ : Type}

/-- Functional merge with a comparator that has effects. -/
def fmerge (cmp : Cmp τ α) (t : τ) : List α → List α → Out (List α) × τ
  | [], ys => (.ok ys, t)
  | x :: xs, [] => (.ok (x :: xs), t)
  | x :: xs, y :: ys =>
    match cmp t x y with
    | (.ok c, t') =>
      if c ≤ 0 then
        match fmerge cmp t' xs (y :: ys) with
        | (.ok zs, t'') => (.ok (x :: zs), t'')
        | r => r
      else
        match fmerge cmp t' (x :: xs) ys with
        | (.ok zs, t'') => (.ok (y :: zs), t'')
        | r => r
    | (.die m, t') => (.die m, t')
    | (.ub, t') => (.ub, t')
termination_by xs ys => xs.length + ys.length

/-- `n` elements from `i`. -/
def seg (a : List α) (i n : Nat) : List α := (a.drop i).take n

theorem seg_length {a : List α} {i n : Nat} (h : i + n ≤ a.length) : (seg a i n).length = n := by
  simp [seg]; omega

theorem seg_zero (a : List α) (i : Nat) : seg a i 0 = [] := by simp [seg]

theorem seg_succ {a : List α} {i n : Nat} (h : i < a.length) : seg a i (n + 1) = a[i] :: seg a (i + 1) n := by
  unfold seg
  rw [List.drop_eq_getElem_cons h, List.take_succ_cons]

/-- The scratch array with `zs` written from `k`. -/
def wrt (b : List α) (k : Nat) (zs : List α) : List α := b.take k ++ (zs ++ b.drop (k + zs.length))

theorem wrt_nil (b : List α) (k : Nat) : wrt b k [] = b := by simp [wrt]

theorem wrt_length {b : List α} {k : Nat} {zs : List α} (h : k + zs.length ≤ b.length) : (wrt b k zs).length = b.length := by
  simp [wrt]; omega

theorem wrt_cons {b : List α} {k : Nat} {x : α} {zs : List α} (h : k < b.length) :
    wrt (b.set k x) (k + 1) zs = wrt b k (x :: zs) := by
  unfold wrt
  rw [List.take_succ_eq_append_getElem (by simpa using h)]
  simp only [List.getElem_set_self, List.append_assoc, List.singleton_append, List.cons_append, List.nil_append, List.length_cons]
  rw [List.take_set_of_le (by omega), List.drop_set_of_lt (by omega)]
  have : k + 1 + zs.length = k + (zs.length + 1) := by omega
  rw [this]

theorem getA_ok {s : St τ α} {i : Nat} (h : i < s.a.length) : getA i s = (.ok s.a[i], s) := by
  simp only [getA, Prog.get_bind_apply, Prog.lift_apply]
  rw [aGet_ok (by omega) (by simpa using h)]; rfl

theorem getB_ok {s : St τ α} {i : Nat} (h : i < s.b.length) : getB i s = (.ok s.b[i], s) := by
  simp only [getB, Prog.get_bind_apply, Prog.lift_apply]
  rw [aGet_ok (by omega) (by simpa using h)]; rfl

theorem setB_ok {s : St τ α} {k : Nat} {x : α} (h : k < s.b.length) : setB k x s = (.ok (), { s with b := s.b.set k x }) := by
  simp only [setB, Prog.get_bind_apply]
  rw [aSet_ok (by omega) (by simpa using h)]; rfl

theorem setA_ok {s : St τ α} {k : Nat} {x : α} (h : k < s.a.length) : setA k x s = (.ok (), { s with a := s.a.set k x }) := by
  simp only [setA, Prog.get_bind_apply]
  rw [aSet_ok (by omega) (by simpa using h)]; rfl

theorem drain_ok (last i k : Nat) {s : St τ α} (ha : last < s.a.length) (hb : k + (last + 1 - i) ≤ s.b.length)
    (hi : i ≤ last + 1) :
    drain last i k s = (.ok (last + 1, k + (last + 1 - i)), { s with b := wrt s.b k (seg s.a i (last + 1 - i)) }) := by
  generalize hn : last + 1 - i = n at *
  induction n generalizing i k s with
  | zero =>
    unfold drain
    simp only [Prog.ite_apply]
    rw [if_neg (by omega)]
    have : i = last + 1 := by omega
    simp [seg_zero, wrt_nil, this]
  | succ n ih =>
    unfold drain
    simp only [Prog.ite_apply]
    rw [if_pos (by omega), Prog.bind_ok (getA_ok (by omega)), Prog.bind_ok (setB_ok (by omega))]
    have ih' := ih (i + 1) (k + 1) (s := { s with b := s.b.set k s.a[i] }) (by simpa using ha)
      (by omega) (by omega) (by simp only [List.length_set]; omega)
    rw [ih']
    rw [seg_succ (by omega)]
    simp only [wrt_cons (show k < s.b.length by omega)]
    congr 3; omega

/-- What the comparing loop followed by the copy of the rest does. -/
theorem mergeRest (cmp : Cmp τ α) (left mid right : Nat) (i j k : Nat) (s : St τ α) (hr : right < s.a.length)
    (hmr : mid < right) (hi : i ≤ mid + 1) (hj1 : mid + 1 ≤ j) (hj : j ≤ right + 1)
    (hk : k = (i - left) + (j - (mid + 1))) (hli : left ≤ i) (hb : right + 1 - left ≤ s.b.length) :
    match fmerge cmp s.env (seg s.a i (mid + 1 - i)) (seg s.a j (right + 1 - j)) with
    | (.ok zs, t') => (mergeLoop cmp mid right i j k >>= drains mid right) s =
        (.ok (mid + 1, right + 1, k + zs.length), { a := s.a, b := wrt s.b k zs, env := t' })
    | (.die m, t') => ∃ b', b'.length = s.b.length ∧ (mergeLoop cmp mid right i j k >>= drains mid right) s =
        (.die m, { a := s.a, b := b', env := t' })
    | (.ub, t') => ∃ b', b'.length = s.b.length ∧ (mergeLoop cmp mid right i j k >>= drains mid right) s =
        (.ub, { a := s.a, b := b', env := t' }) := by
  generalize hn : (mid + 1 - i) + (right + 1 - j) = n
  induction n using Nat.strongRecOn generalizing i j k s with
  | ind n ih =>
    by_cases hc : i ≤ mid ∧ j ≤ right
    · obtain ⟨p, hp⟩ : ∃ p, mid + 1 - i = p + 1 := ⟨mid - i, by omega⟩
      obtain ⟨q, hq⟩ : ∃ q, right + 1 - j = q + 1 := ⟨right - j, by omega⟩
      rw [hp, hq, seg_succ (by omega), seg_succ (by omega)]
      rw [mergeLoop]
      have e1 : getA i s = (.ok s.a[i], s) := getA_ok (by omega)
      have e2 : getA j s = (.ok s.a[j], s) := getA_ok (by omega)
      unfold fmerge
      cases hcmp : cmp s.env s.a[i] s.a[j] with
      | mk o t' =>
        have e3 : callCmp cmp s.a[i] s.a[j] s = (o, { s with env := t' }) := by simp [callCmp, hcmp]
        cases o with
        | ok c =>
          by_cases h0 : c ≤ 0
          · simp only [h0, if_true]
            have ih' := ih (mid + 1 - (i + 1) + (right + 1 - j)) (by omega) (i + 1) j (k + 1)
              { a := s.a, b := s.b.set k s.a[i], env := t' } (by simpa using hr) (by omega) (by omega) hj (by omega) (by omega)
              (by simpa using hb) rfl
            have hp' : mid + 1 - (i + 1) = p := by omega
            rw [hp', hq, seg_succ (by simp; omega)] at ih'
            have hrun : (mergeLoop cmp mid right i j k >>= drains mid right) s =
                (mergeLoop cmp mid right (i + 1) j (k + 1) >>= drains mid right) { a := s.a, b := s.b.set k s.a[i], env := t' } := by
              have : mergeLoop cmp mid right i j k s =
                  mergeLoop cmp mid right (i + 1) j (k + 1) { a := s.a, b := s.b.set k s.a[i], env := t' } := by
                rw [mergeLoop]
                simp only [Prog.ite_apply]
                rw [if_pos hc, Prog.bind_ok e1, Prog.bind_ok e2, Prog.bind_ok e3]
                simp only [Prog.ite_apply]
                rw [if_pos h0]
                rw [Prog.bind_ok (getA_ok (s := { s with env := t' }) (i := i) (by simp; omega)), Prog.bind_ok (setB_ok (by simp; omega))]
              simp only [Prog.bind_apply, this]
            rw [mergeLoop] at hrun
            rw [hrun]
            revert ih'
            simp only
            cases fmerge cmp t' (seg s.a (i + 1) p) (s.a[j] :: seg s.a (j + 1) q) with
            | mk o2 t2 =>
              cases o2 with
              | ok zs =>
                simp only
                intro ih'
                rw [ih', wrt_cons (by omega)]
                simp only [List.length_cons]
                congr 4; omega
              | die m => simp
              | ub => simp
          · simp only [h0, if_false]
            have ih' := ih (mid + 1 - i + (right + 1 - (j + 1))) (by omega) i (j + 1) (k + 1)
              { a := s.a, b := s.b.set k s.a[j], env := t' } (by simpa using hr) (by omega) (by omega) (by omega) (by omega) (by omega)
              (by simpa using hb) rfl
            have hq' : right + 1 - (j + 1) = q := by omega
            rw [hq', hp, seg_succ (by simp; omega)] at ih'
            have hrun : (mergeLoop cmp mid right i j k >>= drains mid right) s =
                (mergeLoop cmp mid right i (j + 1) (k + 1) >>= drains mid right) { a := s.a, b := s.b.set k s.a[j], env := t' } := by
              have : mergeLoop cmp mid right i j k s =
                  mergeLoop cmp mid right i (j + 1) (k + 1) { a := s.a, b := s.b.set k s.a[j], env := t' } := by
                rw [mergeLoop]
                simp only [Prog.ite_apply]
                rw [if_pos hc, Prog.bind_ok e1, Prog.bind_ok e2, Prog.bind_ok e3]
                simp only [Prog.ite_apply]
                rw [if_neg h0]
                rw [Prog.bind_ok (getA_ok (s := { s with env := t' }) (i := j) (by simp; omega)), Prog.bind_ok (setB_ok (by simp; omega))]
              simp only [Prog.bind_apply, this]
            rw [mergeLoop] at hrun
            rw [hrun]
            revert ih'
            simp only
            cases fmerge cmp t' (s.a[i] :: seg s.a (i + 1) p) (seg s.a (j + 1) q) with
            | mk o2 t2 =>
              cases o2 with
              | ok zs =>
                simp only
                intro ih'
                rw [ih', wrt_cons (by omega)]
                simp only [List.length_cons]
                congr 4; omega
              | die m => simp
              | ub => simp
        | die m =>
          simp only
          refine ⟨s.b, rfl, ?_⟩
          apply Prog.bind_die
          simp only [Prog.ite_apply]
          rw [if_pos hc, Prog.bind_ok e1, Prog.bind_ok e2, Prog.bind_die e3]
        | ub =>
          simp only
          refine ⟨s.b, rfl, ?_⟩
          simp only [Prog.bind_apply, Prog.ite_apply]
          simp [hc, e1, e2, e3]
    · have e : mergeLoop cmp mid right i j k s = (.ok (i, j, k), s) := by
        rw [mergeLoop]; simp only [Prog.ite_apply]; rw [if_neg hc]; rfl
      rw [Prog.bind_ok e]
      by_cases h1 : i = mid + 1
      · have hz : mid + 1 - i = 0 := by omega
        rw [hz, seg_zero]
        simp only [fmerge]
        have hd := drain_ok right j k (s := s) (by omega) (by omega) (by omega)
        simp only [drains, Prog.ite_apply]
        rw [if_pos h1, Prog.bind_ok hd]
        rw [seg_length (by omega)]
        simp [h1]
      · have hz : right + 1 - j = 0 := by omega
        obtain ⟨p, hp⟩ : ∃ p, mid + 1 - i = p + 1 := ⟨mid - i, by omega⟩
        have hd := drain_ok mid i k (s := s) (by omega) (by omega) (by omega)
        rw [hz, seg_zero]
        have hf : fmerge cmp s.env (seg s.a i (mid + 1 - i)) [] = (.ok (seg s.a i (mid + 1 - i)), s.env) := by
          rw [hp, seg_succ (by omega)]; simp [fmerge]
        rw [hf]
        simp only [drains, Prog.ite_apply]
        rw [if_neg h1, Prog.bind_ok hd]
        rw [seg_length (by omega)]
        have : j = right + 1 := by omega
        simp [this]

/-- The loop that copies back. -/
theorem copyBack_ok (left n i : Nat) {s : St τ α} (hb : i + n ≤ s.b.length) (ha : left + i + n ≤ s.a.length) :
    copyBack left i n s = (.ok (), { s with a := wrt s.a (left + i) (seg s.b i n) }) := by
  induction n generalizing i s with
  | zero => simp [copyBack, seg_zero, wrt_nil]
  | succ n ih =>
    simp only [copyBack]
    rw [Prog.bind_ok (getB_ok (by omega)), Prog.bind_ok (setA_ok (by omega))]
    rw [ih (i + 1) (by simp; omega) (by simp; omega)]
    rw [seg_succ (by omega)]
    have h1 : i + left = left + i := by omega
    have h2 : left + (i + 1) = left + i + 1 := by omega
    simp only [h1, h2, wrt_cons (show left + i < s.a.length by omega)]

theorem fmerge_perm (cmp : Cmp τ α) (t : τ) (xs ys zs : List α) (t' : τ) (h : fmerge cmp t xs ys = (.ok zs, t')) :
    zs.Perm (xs ++ ys) := by
  fun_induction fmerge cmp t xs ys generalizing zs t' with
  | case1 => cases h; simp
  | case2 => cases h; simp
  | case3 t x xs y ys c t1 hc h0 zs' t'' e ih =>
    cases h
    exact (ih _ _ e).cons x
  | case4 t x xs y ys c t1 hc h0 hne ih => exact absurd h (hne zs t')
  | case5 t x xs y ys c t1 hc h0 zs' t'' e ih =>
    cases h
    exact ((ih _ _ e).cons y).trans (List.perm_middle.symm)
  | case6 t x xs y ys c t1 hc h0 hne ih => exact absurd h (hne zs t')
  | case7 => cases h
  | case8 => cases h

/-- `merge` of two neighbouring sorted ranges. -/
theorem merge_spec (cmp : Cmp τ α) (left mid right : Nat) (s : St τ α) (hr : right < s.a.length) (h1 : left ≤ mid)
    (h2 : mid < right) (hb : right + 1 - left ≤ s.b.length) :
    match fmerge cmp s.env (seg s.a left (mid + 1 - left)) (seg s.a (mid + 1) (right - mid)) with
    | (.ok zs, t') => ∃ b', b'.length = s.b.length ∧ merge cmp left mid right s =
        (.ok (), { a := wrt s.a left zs, b := b', env := t' })
    | (.die m, t') => ∃ b', b'.length = s.b.length ∧ merge cmp left mid right s = (.die m, { a := s.a, b := b', env := t' })
    | (.ub, t') => ∃ b', b'.length = s.b.length ∧ merge cmp left mid right s = (.ub, { a := s.a, b := b', env := t' }) := by
  have hm := mergeRest cmp left mid right left (mid + 1) 0 s hr h2 (by omega) (by omega) (by omega) (by omega) (by omega) hb
  have hrj : right + 1 - (mid + 1) = right - mid := by omega
  rw [hrj] at hm
  have hmerge : merge cmp left mid right s =
      ((mergeLoop cmp mid right left (mid + 1) 0 >>= drains mid right) >>= mergeEnd left mid right) s := by
    unfold merge
    simp only [Prog.ite_apply]
    rw [if_pos (by omega)]
    simp only [Prog.bind_apply]
    cases mergeLoop cmp mid right left (mid + 1) 0 s with
    | mk o s' => cases o <;> rfl
  revert hm
  cases hf : fmerge cmp s.env (seg s.a left (mid + 1 - left)) (seg s.a (mid + 1) (right - mid)) with
  | mk o t' =>
    cases o with
    | ok zs =>
      simp only
      intro hm
      have hl : zs.length = right + 1 - left := by
        have := (fmerge_perm _ _ _ _ _ _ hf).length_eq
        rw [List.length_append, seg_length (by omega), seg_length (by omega)] at this
        omega
      have hlw : (wrt s.b 0 zs).length = s.b.length := wrt_length (by omega)
      refine ⟨wrt s.b 0 zs, hlw, ?_⟩
      rw [hmerge, Prog.bind_ok hm]
      simp only [mergeEnd, Prog.ite_apply]
      rw [if_neg (by omega)]
      rw [copyBack_ok left (0 + zs.length) 0 (by simp only; omega) (by simp only; omega)]
      have : seg (wrt s.b 0 zs) 0 (0 + zs.length) = zs := by simp [seg, wrt]
      simp only [this, Nat.add_zero]
    | die m =>
      simp only
      rintro ⟨b', hb', e⟩
      exact ⟨b', hb', by rw [hmerge]; exact Prog.bind_die e⟩
    | ub =>
      simp only
      rintro ⟨b', hb', e⟩
      exact ⟨b', hb', by rw [hmerge, Prog.bind_apply, e]⟩

/-! ## The recursive sort -/

theorem seg_append (a : List α) (i n m : Nat) : seg a i (n + m) = seg a i n ++ seg a (i + n) m := by
  unfold seg
  rw [List.take_add, List.drop_drop]

theorem wrt_getElem? {a : List α} {k : Nat} {zs : List α} (h : k + zs.length ≤ a.length) (j : Nat) :
    (wrt a k zs)[j]? = if k ≤ j ∧ j < k + zs.length then zs[j - k]? else a[j]? := by
  unfold wrt
  simp only [List.getElem?_take, List.getElem?_drop, List.getElem?_append, List.length_take]
  grind

theorem seg_getElem? (a : List α) (i n j : Nat) : (seg a i n)[j]? = if j < n then a[i + j]? else none := by
  unfold seg
  simp only [List.getElem?_take, List.getElem?_drop]

theorem seg_wrt_same {a : List α} {k : Nat} {zs : List α} (h : k + zs.length ≤ a.length) : seg (wrt a k zs) k zs.length = zs := by
  apply List.ext_getElem?
  intro j
  rw [seg_getElem?, wrt_getElem? h]
  grind

theorem seg_wrt_before {a : List α} {k i n : Nat} {zs : List α} (h : i + n ≤ k) (h2 : k + zs.length ≤ a.length) :
    seg (wrt a k zs) i n = seg a i n := by
  apply List.ext_getElem?
  intro j
  rw [seg_getElem?, seg_getElem?, wrt_getElem? h2]
  grind

theorem seg_wrt_after {a : List α} {k i n : Nat} {zs : List α} (h : k + zs.length ≤ i) (h2 : k + zs.length ≤ a.length) :
    seg (wrt a k zs) i n = seg a i n := by
  apply List.ext_getElem?
  intro j
  rw [seg_getElem?, seg_getElem?, wrt_getElem? h2]
  grind

theorem wrt_wrt_same {a : List α} {k : Nat} {xs zs : List α} (h : k + xs.length ≤ a.length)
    (hz : zs.length = xs.length) : wrt (wrt a k xs) k zs = wrt a k zs := by
  apply List.ext_getElem?
  intro j
  rw [wrt_getElem? (by rw [wrt_length h]; omega), wrt_getElem? h, wrt_getElem? (by omega)]
  grind

theorem wrt_append {a : List α} {k : Nat} {xs ys : List α} (h : k + xs.length + ys.length ≤ a.length) :
    wrt (wrt a k xs) (k + xs.length) ys = wrt a k (xs ++ ys) := by
  apply List.ext_getElem?
  intro j
  rw [wrt_getElem? (by rw [wrt_length (by omega)]; omega), wrt_getElem? (by omega), wrt_getElem? (by simp; omega)]
  simp only [List.length_append, List.getElem?_append]
  grind

theorem wrt_seg {a : List α} {k n : Nat} (h : k + n ≤ a.length) : wrt a k (seg a k n) = a := by
  apply List.ext_getElem?
  intro j
  rw [wrt_getElem? (by rw [seg_length h]; omega), seg_length h, seg_getElem?]
  grind

/-- The outcome is normal, or it is an exception (or undefined behaviour) of the comparator. -/
def FromCmp (cmp : Cmp τ α) {β : Type} (o : Out β) : Prop :=
  (∃ v, o = .ok v) ∨ (∃ m t x y, o = .die m ∧ (cmp t x y).1 = .die m) ∨ (∃ t x y, o = .ub ∧ (cmp t x y).1 = .ub)

theorem fromCmp_ok (cmp : Cmp τ α) {β : Type} (v : β) : FromCmp cmp (.ok v : Out β) := .inl ⟨v, rfl⟩
theorem fromCmp_die {cmp : Cmp τ α} {β γ : Type} {m : String} (h : FromCmp cmp (.die m : Out β)) : FromCmp cmp (.die m : Out γ) := by
  rcases h with ⟨v, h⟩ | ⟨m', t, x, y, h, h'⟩ | ⟨t, x, y, h, _⟩
  · cases h
  · cases h; exact .inr (.inl ⟨m, t, x, y, rfl, h'⟩)
  · cases h
theorem fromCmp_ub {cmp : Cmp τ α} {β γ : Type} (h : FromCmp cmp (.ub : Out β)) : FromCmp cmp (.ub : Out γ) := by
  rcases h with ⟨v, h⟩ | ⟨m', t, x, y, h, h'⟩ | ⟨t, x, y, _, h⟩
  · cases h
  · cases h
  · exact .inr (.inr ⟨t, x, y, rfl, h⟩)

theorem fmerge_from (cmp : Cmp τ α) (t : τ) (xs ys : List α) : FromCmp cmp (fmerge cmp t xs ys).1 := by
  fun_induction fmerge cmp t xs ys with
  | case1 => exact fromCmp_ok _ _
  | case2 => exact fromCmp_ok _ _
  | case3 => exact fromCmp_ok _ _
  | case4 t x xs y ys c t' hc h0 hne ih => exact ih
  | case5 => exact fromCmp_ok _ _
  | case6 t x xs y ys c t' hc h0 hne ih => exact ih
  | case7 t x xs y ys m t' hc => exact .inr (.inl ⟨m, t, x, y, rfl, by rw [hc]⟩)
  | case8 t x xs y ys t' hc => exact .inr (.inr ⟨t, x, y, rfl, by rw [hc]⟩)

theorem mergeSort_perm (cmp : Cmp τ α) (left right : Nat) (s : St τ α) (hr : right < s.a.length) (hl : left ≤ right + 1)
    (hb : right + 1 - left ≤ s.b.length) (hov : right ≤ 1073741823) :
    ∃ o zs b' t', mergeSort cmp left right s = (o, { a := wrt s.a left zs, b := b', env := t' }) ∧
      zs.Perm (seg s.a left (right + 1 - left)) ∧ b'.length = s.b.length ∧ FromCmp cmp o := by
  generalize hn : right + 1 - left = n
  induction n using Nat.strongRecOn generalizing left right s with
  | ind n ih =>
    rw [mergeSort]
    simp only [Prog.ite_apply]
    by_cases hlr : left ≥ right
    · rw [if_pos hlr]
      refine ⟨.ok (), seg s.a left n, s.b, s.env, ?_, List.Perm.refl _, rfl, fromCmp_ok _ _⟩
      rw [wrt_seg (by omega)]; rfl
    · rw [if_neg hlr]
      rw [add32_ok (by constructor <;> omega)]
      simp only [Prog.lift_ok_bind]
      generalize hm : (left + right) / 2 = mid
      have hm1 : left ≤ mid := by omega
      have hm2 : mid < right := by omega
      obtain ⟨o1, z1, b1, t1, e1, p1, l1, d1⟩ := ih (mid + 1 - left) (by omega) left mid s (by omega) (by omega) (by omega) (by omega) rfl
      have hz1 : z1.length = mid + 1 - left := by rw [p1.length_eq, seg_length (by omega)]
      have hsplit : seg s.a left n = seg s.a left (mid + 1 - left) ++ seg s.a (mid + 1) (right - mid) := by
        have : n = (mid + 1 - left) + (right - mid) := by omega
        rw [this, seg_append]
        have : left + (mid + 1 - left) = mid + 1 := by omega
        rw [this]
      have hk : mid + 1 = left + z1.length := by omega
      have hseg2 : seg (wrt s.a left z1) (mid + 1) (right - mid) = seg s.a (mid + 1) (right - mid) :=
        seg_wrt_after (by omega) (by omega)
      have hw1 : wrt s.a left (z1 ++ seg s.a (mid + 1) (right - mid)) = wrt s.a left z1 := by
        rw [← wrt_append (by rw [seg_length (by omega)]; omega), ← hk]
        rw [← hseg2]
        exact wrt_seg (by rw [wrt_length (by omega)]; omega)
      cases o1 with
      | die m =>
        refine ⟨.die m, z1 ++ seg s.a (mid + 1) (right - mid), b1, t1, ?_, ?_, l1, d1⟩
        · rw [Prog.bind_die e1, hw1]
        · rw [hsplit]; exact p1.append_right _
      | ub =>
        refine ⟨.ub, z1 ++ seg s.a (mid + 1) (right - mid), b1, t1, ?_, ?_, l1, d1⟩
        · rw [Prog.bind_apply, e1, hw1]
        · rw [hsplit]; exact p1.append_right _
      | ok u =>
        rw [Prog.bind_ok e1]
        obtain ⟨o2, z2, b2, t2, e2, p2, l2, d2⟩ := ih (right + 1 - (mid + 1)) (by omega) (mid + 1) right
          { a := wrt s.a left z1, b := b1, env := t1 } (by simp only; rw [wrt_length (by omega)]; exact hr) (by omega)
          (by simp only; omega) (by omega) rfl
        have hrm : right + 1 - (mid + 1) = right - mid := by omega
        simp only [hrm] at p2 e2
        rw [hseg2] at p2
        have hz2 : z2.length = right - mid := by rw [p2.length_eq, seg_length (by omega)]
        have hw2 : wrt (wrt s.a left z1) (mid + 1) z2 = wrt s.a left (z1 ++ z2) := by
          rw [hk]; exact wrt_append (by omega)
        rw [hw2] at e2
        have hp12 : (z1 ++ z2).Perm (seg s.a left n) := by rw [hsplit]; exact p1.append p2
        cases o2 with
        | die m => exact ⟨.die m, z1 ++ z2, b2, t2, Prog.bind_die e2, hp12, by simp only at l2; omega, d2⟩
        | ub => exact ⟨.ub, z1 ++ z2, b2, t2, by rw [Prog.bind_apply, e2], hp12, by simp only at l2; omega, d2⟩
        | ok u =>
          rw [Prog.bind_ok e2]
          have hlw : (wrt s.a left (z1 ++ z2)).length = s.a.length := wrt_length (by simp; omega)
          have hms := merge_spec cmp left mid right { a := wrt s.a left (z1 ++ z2), b := b2, env := t2 } (by simp only; omega) hm1 hm2
            (by simp only at l2 ⊢; omega)
          have hs1 : seg (wrt s.a left (z1 ++ z2)) left (mid + 1 - left) = z1 := by
            rw [← hw2, seg_wrt_before (by omega) (by rw [wrt_length (by omega)]; omega), ← hz1]
            exact seg_wrt_same (by omega)
          have hs2 : seg (wrt s.a left (z1 ++ z2)) (mid + 1) (right - mid) = z2 := by
            rw [← hw2, ← hz2]
            exact seg_wrt_same (by rw [wrt_length (by omega)]; omega)
          simp only [hs1, hs2] at hms
          have hdef := fmerge_from cmp t2 z1 z2
          revert hms hdef
          cases hf : fmerge cmp t2 z1 z2 with
          | mk o t' =>
            cases o with
            | ok zs =>
              have hp := fmerge_perm _ _ _ _ _ _ hf
              simp only
              rintro ⟨b', hb', e⟩ hdef
              refine ⟨.ok (), zs, b', t', ?_, hp.trans hp12, by simp only at l2; omega, fromCmp_ok _ _⟩
              rw [e, wrt_wrt_same (by simp; omega) hp.length_eq]
            | die m =>
              simp only
              rintro ⟨b', hb', e⟩ hdef
              exact ⟨.die m, z1 ++ z2, b', t', e, hp12, by simp only at l2; omega, fromCmp_die hdef⟩
            | ub =>
              simp only
              rintro ⟨b', hb', e⟩ hdef
              exact ⟨.ub, z1 ++ z2, b', t', e, hp12, by simp only at l2; omega, fromCmp_ub hdef⟩

/-! ## Consistent comparators -/

/-- The comparator always answers `c x y`. -/
def Answers (cmp : Cmp τ α) (c : α → α → Int) : Prop := ∀ t x y, (cmp t x y).1 = .ok (c x y)

theorem fmerge_sorted {cmp : Cmp τ α} {c : α → α → Int} (ha : Answers cmp c) (hp : Preorder c) (t : τ) (xs ys : List α)
    (h1 : Sorted c xs) (h2 : Sorted c ys) :
    ∃ zs, (fmerge cmp t xs ys).1 = .ok zs ∧ Sorted c zs ∧ zs.Perm (xs ++ ys) ∧
      ∀ z, zs.filter (same c z) = xs.filter (same c z) ++ ys.filter (same c z) := by
  fun_induction fmerge cmp t xs ys with
  | case1 => exact ⟨_, rfl, h2, List.Perm.refl _, by simp⟩
  | case2 => exact ⟨_, rfl, h1, by simp, by simp⟩
  | case3 t x xs y ys c' t1 hc h0 zs' t'' e ih =>
    have hcc := ha t x y
    rw [hc] at hcc
    cases hcc
    simp only [Sorted, List.pairwise_cons] at h1
    obtain ⟨zs, e1, s1, p1, f1⟩ := ih h1.2 h2
    rw [e] at e1; cases e1
    refine ⟨_, rfl, ?_, p1.cons x, ?_⟩
    · simp only [Sorted, List.pairwise_cons]
      refine ⟨fun w hw => ?_, s1⟩
      rcases List.mem_append.1 (p1.mem_iff.1 hw) with hw | hw
      · exact h1.1 w hw
      · rcases List.mem_cons.1 hw with rfl | hw
        · exact h0
        · simp only [Sorted, List.pairwise_cons] at h2
          exact hp.trans _ _ _ h0 (h2.1 w hw)
    · intro z
      simp only [List.filter_cons, f1 z]
      split <;> simp
  | case4 t x xs y ys c' t1 hc h0 hne ih =>
    simp only [Sorted, List.pairwise_cons] at h1
    obtain ⟨zs, e1, _⟩ := ih h1.2 h2
    exact (hne zs _ (Prod.ext e1 rfl)).elim
  | case5 t x xs y ys c' t1 hc h0 zs' t'' e ih =>
    have hcc := ha t x y
    rw [hc] at hcc
    cases hcc
    have h2' := h2
    simp only [Sorted, List.pairwise_cons] at h2
    obtain ⟨zs, e1, s1, p1, f1⟩ := ih h1 h2.2
    rw [e] at e1; cases e1
    have hyx : c y x ≤ 0 := by
      rcases hp.total x y with h | h
      · exact absurd h h0
      · exact h
    simp only [Sorted, List.pairwise_cons] at h1
    refine ⟨_, rfl, ?_, (p1.cons y).trans List.perm_middle.symm, ?_⟩
    · simp only [Sorted, List.pairwise_cons]
      refine ⟨fun w hw => ?_, s1⟩
      rcases List.mem_append.1 (p1.mem_iff.1 hw) with hw | hw
      · rcases List.mem_cons.1 hw with rfl | hw
        · exact hyx
        · exact hp.trans _ _ _ hyx (h1.1 w hw)
      · exact h2.1 w hw
    · intro z
      rw [List.filter_cons, f1 z]
      by_cases hz : same c z y = true
      · rw [if_pos hz]
        have hnone : (x :: xs).filter (same c z) = [] := by
          rw [List.filter_eq_nil_iff]
          intro w hw hs
          simp only [same, decide_eq_true_eq] at hz hs
          have hxw : c x w ≤ 0 := by
            rcases List.mem_cons.1 hw with rfl | hw
            · rcases hp.total w w with h | h <;> exact h
            · exact h1.1 w hw
          exact h0 (hp.trans _ _ _ hxw (hp.trans _ _ _ hs.2 hz.1))
        rw [hnone]
        simp [List.filter_cons, hz]
      · rw [if_neg hz]
        simp [List.filter_cons, hz]
  | case6 t x xs y ys c' t1 hc h0 hne ih =>
    simp only [Sorted, List.pairwise_cons] at h2
    obtain ⟨zs, e1, _⟩ := ih h1 h2.2
    exact (hne zs _ (Prod.ext e1 rfl)).elim
  | case7 t x xs y ys m t1 hc => have := ha t x y; rw [hc] at this; cases this
  | case8 t x xs y ys t1 hc => have := ha t x y; rw [hc] at this; cases this

/-- With a consistent comparator the range becomes its stable sort. -/
theorem mergeSort_sorted {cmp : Cmp τ α} {c : α → α → Int} (ha : Answers cmp c) (hp : Preorder c) (left right : Nat)
    (s : St τ α) (hr : right < s.a.length) (hl : left ≤ right + 1)
    (hb : right + 1 - left ≤ s.b.length) (hov : right ≤ 1073741823) :
    ∃ zs b' t', mergeSort cmp left right s = (.ok (), { a := wrt s.a left zs, b := b', env := t' }) ∧
      zs.Perm (seg s.a left (right + 1 - left)) ∧ b'.length = s.b.length ∧ Sorted c zs ∧
      ∀ z, zs.filter (same c z) = (seg s.a left (right + 1 - left)).filter (same c z) := by
  generalize hn : right + 1 - left = n
  induction n using Nat.strongRecOn generalizing left right s with
  | ind n ih =>
    rw [mergeSort]
    simp only [Prog.ite_apply]
    by_cases hlr : left ≥ right
    · rw [if_pos hlr]
      refine ⟨seg s.a left n, s.b, s.env, ?_, List.Perm.refl _, rfl, ?_, fun _ => rfl⟩
      · rw [wrt_seg (by omega)]; rfl
      · have hlen : (seg s.a left n).length ≤ 1 := by rw [seg_length (by omega)]; omega
        unfold Sorted
        match seg s.a left n, hlen with
        | [], _ => simp
        | [x], _ => simp
    · rw [if_neg hlr]
      rw [add32_ok (by constructor <;> omega)]
      simp only [Prog.lift_ok_bind]
      generalize hm : (left + right) / 2 = mid
      have hm1 : left ≤ mid := by omega
      have hm2 : mid < right := by omega
      obtain ⟨z1, b1, t1, e1, p1, l1, s1, f1⟩ := ih (mid + 1 - left) (by omega) left mid s (by omega) (by omega) (by omega) (by omega) rfl
      have hz1 : z1.length = mid + 1 - left := by rw [p1.length_eq, seg_length (by omega)]
      have hsplit : seg s.a left n = seg s.a left (mid + 1 - left) ++ seg s.a (mid + 1) (right - mid) := by
        have : n = (mid + 1 - left) + (right - mid) := by omega
        rw [this, seg_append]
        have : left + (mid + 1 - left) = mid + 1 := by omega
        rw [this]
      have hk : mid + 1 = left + z1.length := by omega
      have hseg2 : seg (wrt s.a left z1) (mid + 1) (right - mid) = seg s.a (mid + 1) (right - mid) :=
        seg_wrt_after (by omega) (by omega)
      rw [Prog.bind_ok e1]
      obtain ⟨z2, b2, t2, e2, p2, l2, s2, f2⟩ := ih (right + 1 - (mid + 1)) (by omega) (mid + 1) right
          { a := wrt s.a left z1, b := b1, env := t1 } (by simp only; rw [wrt_length (by omega)]; exact hr) (by omega)
          (by simp only; omega) (by omega) rfl
      have hrm : right + 1 - (mid + 1) = right - mid := by omega
      simp only [hrm] at p2 e2 f2
      rw [hseg2] at p2 f2
      have hz2 : z2.length = right - mid := by rw [p2.length_eq, seg_length (by omega)]
      have hw2 : wrt (wrt s.a left z1) (mid + 1) z2 = wrt s.a left (z1 ++ z2) := by
          rw [hk]; exact wrt_append (by omega)
      rw [hw2] at e2
      have hp12 : (z1 ++ z2).Perm (seg s.a left n) := by rw [hsplit]; exact p1.append p2
      rw [Prog.bind_ok e2]
      have hlw : (wrt s.a left (z1 ++ z2)).length = s.a.length := wrt_length (by simp; omega)
      have hms := merge_spec cmp left mid right { a := wrt s.a left (z1 ++ z2), b := b2, env := t2 } (by simp only; omega) hm1 hm2
            (by simp only at l2 ⊢; omega)
      have hs1 : seg (wrt s.a left (z1 ++ z2)) left (mid + 1 - left) = z1 := by
            rw [← hw2, seg_wrt_before (by omega) (by rw [wrt_length (by omega)]; omega), ← hz1]
            exact seg_wrt_same (by omega)
      have hs2 : seg (wrt s.a left (z1 ++ z2)) (mid + 1) (right - mid) = z2 := by
            rw [← hw2, ← hz2]
            exact seg_wrt_same (by rw [wrt_length (by omega)]; omega)
      simp only [hs1, hs2] at hms
      obtain ⟨zs, g1, g2, g3, g4⟩ := fmerge_sorted ha hp t2 z1 z2 s1 s2
      revert hms
      cases hf : fmerge cmp t2 z1 z2 with
      | mk o t' =>
        rw [hf] at g1
        simp only at g1
        subst g1
        simp only
        rintro ⟨b', hb', e⟩
        refine ⟨zs, b', t', ?_, g3.trans hp12, by simp only at l2; omega, g2, fun z => ?_⟩
        · rw [e, wrt_wrt_same (by simp; omega) g3.length_eq]
        · rw [g4 z, f1 z, f2 z, hsplit, List.filter_append]

end MSort
end SPVM
