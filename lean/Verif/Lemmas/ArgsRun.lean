import Verif.Lemmas.Args
/-!
# What the opcodes of a call do to the value stack and to the frame
-/
namespace SPVM
namespace Args
open Types (World Ty Cat cat isNumeric isMulnum isObject isUndef isVoid assign hasCat_iff facts TyFacts isObj_iff objB)
open Spec.Types (HasCat IsObj WfTy Wf Assignable Converts)
open Vars (VarKind Decl)
open Expr (NT Val Fl)
open Spec.Args
variable {φ : Type}

/-- `n` cells of the stack from `idx` on. -/
def At (s : List (Cell φ)) (idx n : Nat) (f : Nat → Cell φ) : Prop := ∀ i, i < n → s[idx + i]? = some (f i)

theorem At.congr {s s' : List (Cell φ)} {idx n : Nat} {f : Nat → Cell φ} (h : At s idx n f)
    (he : ∀ i, idx ≤ i → i < idx + n → s'[i]? = s[i]?) : At s' idx n f := by
  intro i hi
  rw [he _ (by omega) (by omega)]
  exact h i hi

theorem put_ok {s : List (Cell φ)} {i : Nat} {c : Cell φ} (h : i < s.length) : put s i c = .ok (s.set i c) := by simp [put, h]

theorem putMul_ok (m : Mem φ) (k : VarKind) (var base : Nat) (n : Nat) (s : List (Cell φ)) (h : base + n ≤ s.length) :
    ∃ s', putMul m k var base n s = .ok s' ∧ s'.length = s.length ∧ At s' base n (fun i => (k, m k (var + i))) ∧
      ∀ i, i < base ∨ base + n ≤ i → s'[i]? = s[i]? := by
  induction n with
  | zero => exact ⟨s, rfl, rfl, fun i hi => absurd hi (by omega), fun _ _ => rfl⟩
  | succ n ih =>
    obtain ⟨s1, e1, l1, a1, o1⟩ := ih (by omega)
    refine ⟨s1.set (base + n) (k, m k (var + n)), ?_, by simp [l1], ?_, ?_⟩
    · simp only [putMul, e1, Out.ok_bind, put_ok (show base + n < s1.length by omega)]
    · intro i hi
      by_cases hin : i = n
      · subst hin
        rw [List.getElem?_set_self (by omega)]
      · rw [List.getElem?_set_ne (by omega)]
        exact a1 i (by omega)
    · intro i hi
      rw [List.getElem?_set_ne (by omega)]
      exact o1 i (by omega)

/-- The cells that are written for an operand. -/
def termCell (E : Env) (t : Ty) (a : Term) (m : Mem φ) (i : Nat) : Cell φ :=
  if isUndef a.ty then (.object, .obj none) else (varKind E t, m (varKind E t) (a.var + i))

theorem setOp_ok {E : Env} (hE : EnvOk E) {t : Ty} (ht : VarTy E.w t) (a : Term) (hu : isUndef a.ty = true → IsObj E.w t)
    (m : Mem φ) (s : List (Cell φ)) (idx : Nat) (hi : idx < 65536) (hl : idx + width E t ≤ s.length) :
    ∃ o s', setOp E t a idx = .ok o ∧ execSet m s o = .ok s' ∧ s'.length = s.length ∧ At s' idx (width E t) (termCell E t a m) ∧
      ∀ i, i < idx ∨ idx + width E t ≤ i → s'[i]? = s[i]? := by
  have hm : idx % 65536 = idx := Nat.mod_eq_of_lt hi
  have one : ∀ (c : Cell φ), width E t = 1 → termCell E t a m 0 = c →
      (s.set idx c).length = s.length ∧ At (s.set idx c) idx (width E t) (termCell E t a m) ∧
      ∀ i, i < idx ∨ idx + width E t ≤ i → (s.set idx c)[i]? = s[i]? := by
    intro c hw hc
    rw [hw]
    refine ⟨by simp, ?_, ?_⟩
    · intro i hi
      have : i = 0 := by omega
      subst this
      rw [Nat.add_zero, List.getElem?_set_self (by omega), hc]
    · intro i hi
      rw [List.getElem?_set_ne (by omega)]
  by_cases hua : isUndef a.ty = true
  · obtain ⟨-, hw⟩ := shape_eq hE ht (.obj (hu hua))
    obtain ⟨r1, r2, r3⟩ := one (.object, .obj none) hw.symm (by simp [termCell, hua])
    exact ⟨.undef idx, _, by simp [setOp, hua, hm], by rw [execSet, put_ok (by omega)], r1, r2, r3⟩
  · have tc : ∀ i, termCell E t a m i = (varKind E t, m (varKind E t) (a.var + i)) := by intro i; simp [termCell, hua]
    cases sorted hE ht with
    | num h1 h2 h3 h4 _ h5 h6 =>
      have hw : width E t = 1 := by simp [width, h6]
      have hk : varKind E t = numKind t.bt := by simp [varKind, h1, h4, h5, h6]
      obtain ⟨r1, r2, r3⟩ := one (numKind t.bt, m (numKind t.bt) a.var) hw (by rw [tc, hk]; rfl)
      exact ⟨.set (numKind t.bt) a.var idx, _, by simp [setOp, hua, hm, h1, h4, h5, h6], by rw [execSet, put_ok (by omega)], r1, r2, r3⟩
    | obj h1 h2 h3 h4 h5 =>
      have hw : width E t = 1 := by simp [width, h5]
      have hk : varKind E t = .object := by simp [varKind, h1]
      obtain ⟨r1, r2, r3⟩ := one (.object, m .object a.var) hw (by rw [tc, hk]; rfl)
      exact ⟨.set .object a.var idx, _, by simp [setOp, hua, hm, h1, h3, h5], by rw [execSet, put_ok (by omega)], r1, r2, r3⟩
    | ref h1 h2 h3 h4 h5 h6 =>
      have hw : width E t = 1 := by simp [width, h5]
      have hk : varKind E t = .ref := by simp [varKind, h1, h4]
      obtain ⟨r1, r2, r3⟩ := one (.ref, m .ref a.var) hw (by rw [tc, hk]; rfl)
      exact ⟨.set .ref a.var idx, _, by simp [setOp, hua, hm, h1], by rw [execSet, put_ok (by omega)], r1, r2, r3⟩
    | mul h1 h2 h3 h4 h5 h6 h7 =>
      have hw : width E t = (E.mul t.bt).2 := by simp [width, h1]
      have hk : varKind E t = (E.mul t.bt).1 := by simp [varKind, h1, h4, h6]
      obtain ⟨s', e, r1, r2, r3⟩ := putMul_ok m (E.mul t.bt).1 a.var idx (E.mul t.bt).2 s (by rw [← hw]; exact hl)
      refine ⟨.mul (E.mul t.bt).1 a.var (E.mul t.bt).2 idx, s', by simp [setOp, hua, hm, h1, h4], e, r1, ?_, by rw [hw]; exact r3⟩
      rw [hw]
      intro i hi
      rw [tc, hk]
      exact r2 i hi

/-- The width of all types of a list. -/
def total (E : Env) : List (Param φ) → Nat
  | [] => 0
  | p :: ps => width E p.ty + total E ps

theorem total_take_le (E : Env) (ps : List (Param φ)) (n : Nat) : total E (ps.take n) ≤ total E ps := by
  induction ps generalizing n with
  | nil => simp
  | cons p ps ih =>
    cases n with
    | zero => simp [total]
    | succ n => simp only [List.take_succ_cons, total]; have := ih n; omega

theorem total_take_mono (E : Env) (ps : List (Param φ)) {n m : Nat} (h : n ≤ m) : total E (ps.take n) ≤ total E (ps.take m) := by
  have := total_take_le E (ps.take m) n
  rwa [List.take_take, Nat.min_eq_left h] at this

theorem total_succ (E : Env) : ∀ (ps : List (Param φ)) (j : Nat) (p : Param φ), ps[j]? = some p →
    total E (ps.take (j + 1)) = total E (ps.take j) + width E p.ty := by
  intro ps
  induction ps with
  | nil => intro j p h; simp at h
  | cons q ps ih =>
    intro j p h
    cases j with
    | zero =>
      simp only [List.getElem?_cons_zero, Option.some.injEq] at h
      subst h
      simp [total]
    | succ j =>
      have := ih j p (by simpa using h)
      rw [List.take_succ_cons, List.take_succ_cons]
      simp only [total]
      omega

theorem setCode_ok {E : Env} (hE : EnvOk E) (m : Mem φ) : ∀ (ps : List (Param φ)) (as : List Term) (idx : Nat) (s : List (Cell φ)),
    (∀ p ∈ ps, VarTy E.w p.ty) → as.length ≤ ps.length →
    (∀ (j : Nat) (p : Param φ) (a : Term), ps[j]? = some p → as[j]? = some a → isUndef a.ty = true → IsObj E.w p.ty) →
    idx + total E ps ≤ s.length → idx + total E ps < 65536 →
    ∃ code s', setCode E ps as idx = .ok (code, idx + total E (ps.take as.length)) ∧ execSets m code s = .ok s' ∧ s'.length = s.length ∧
      (∀ (j : Nat) (p : Param φ) (a : Term), ps[j]? = some p → as[j]? = some a →
        At s' (idx + total E (ps.take j)) (width E p.ty) (termCell E p.ty a m)) ∧
      ∀ i, i < idx ∨ idx + total E (ps.take as.length) ≤ i → s'[i]? = s[i]? := by
  intro ps
  induction ps with
  | nil =>
    intro as idx s _ hlen _ _ _
    have : as = [] := by cases as with | nil => rfl | cons a as => simp at hlen
    subst this
    exact ⟨[], s, by simp [setCode, total], rfl, rfl, by intro j p a h; simp at h, fun _ _ => rfl⟩
  | cons p ps ih =>
    intro as idx s hv hlen hu hl hb
    cases as with
    | nil => exact ⟨[], s, by simp [setCode, total], rfl, rfl, by intro j p a _ h; simp at h, fun _ _ => rfl⟩
    | cons a as =>
      simp only [total] at hl hb
      obtain ⟨o, s1, e1, e2, l1, a1, o1⟩ := setOp_ok hE (hv p (by simp)) a (hu 0 p a rfl rfl) m s idx (by omega) (by omega)
      obtain ⟨code, s2, e3, e4, l2, a2, o2⟩ := ih as (idx + width E p.ty) s1 (fun q hq => hv q (List.mem_cons_of_mem _ hq))
        (by simpa using hlen) (fun j q b h1 h2 => hu (j + 1) q b (by simpa using h1) (by simpa using h2)) (by omega) (by omega)
      refine ⟨o :: code, s2, ?_, ?_, by omega, ?_, ?_⟩
      · simp only [setCode, e1, e3, Out.ok_bind, List.length_cons, List.take_succ_cons, total, Nat.add_assoc]
      · simp only [execSets, e2, e4, Out.ok_bind]
      · intro j q b h1 h2
        cases j with
        | zero =>
          simp only [List.getElem?_cons_zero, Option.some.injEq] at h1 h2
          subst h1 h2
          simp only [List.take_zero, total, Nat.add_zero]
          exact a1.congr fun i hi1 hi2 => o2 i (.inl (by omega))
        | succ j =>
          simp only [List.getElem?_cons_succ] at h1 h2
          have := a2 j q b h1 h2
          simpa only [List.take_succ_cons, total, Nat.add_assoc] using this
      · intro i hi
        simp only [List.length_cons, List.take_succ_cons, total] at hi
        rw [o2 i (by omega), o1 i (by omega)]

/-! ## The callee -/

theorem read_ok {s : List (Cell φ)} {i : Nat} {c : Cell φ} (h : s[i]? = some c) : read s i c.1 = .ok c.2 := by
  simp [read, Call.slot, h]

theorem getMul_ok {s : List (Cell φ)} {k : VarKind} {var base : Nat} {f : Nat → Cell φ} (n : Nat) (m : Mem φ) (h : At s base n f)
    (hk : ∀ i, i < n → (f i).1 = k) :
    ∃ m', getMul s k var base n m = .ok m' ∧ (∀ i, i < n → m' k (var + i) = (f i).2) ∧
      ∀ k' i, ¬ (k' = k ∧ var ≤ i ∧ i < var + n) → m' k' i = m k' i := by
  induction n with
  | zero => exact ⟨m, rfl, fun i hi => absurd hi (by omega), fun _ _ _ => rfl⟩
  | succ n ih =>
    obtain ⟨m1, e1, a1, o1⟩ := ih (fun i hi => h i (by omega)) (fun i hi => hk i (by omega))
    have hr := read_ok (h n (by omega))
    rw [hk n (by omega)] at hr
    refine ⟨m1.set k (var + n) (f n).2, ?_, ?_, ?_⟩
    · simp only [getMul, e1, hr, Out.ok_bind]
    · intro i hi
      simp only [Mem.set, true_and]
      by_cases hin : i = n
      · subst hin; simp
      · rw [if_neg (by omega)]
        exact a1 i (by omega)
    · intro k' i hi
      simp only [Mem.set]
      rw [if_neg (fun hh => hi ⟨hh.1, by omega, by omega⟩)]
      exact o1 k' i (fun hh => hi ⟨hh.1, by omega, by omega⟩)

theorem getOp_ok {E : Env} (hE : EnvOk E) {t : Ty} (ht : VarTy E.w t) (hd : t.dim ≤ 2) {var idx : Nat} {s : List (Cell φ)} {f : Nat → Cell φ}
    (hb : idx + width E t ≤ 255) (ha : At s idx (width E t) f) (hk : ∀ i, i < width E t → (f i).1 = varKind E t) (m : Mem φ) :
    ∃ o m', getOp E t var idx = .ok o ∧ execGet s m o = .ok m' ∧ (∀ i, i < width E t → m' (varKind E t) (var + i) = (f i).2) ∧
      ∀ k i, ¬ (k = varKind E t ∧ var ≤ i ∧ i < var + width E t) → m' k i = m k i := by
  have hpos := width_pos hE (t := t)
  have hm : idx % 256 = idx := Nat.mod_eq_of_lt (by omega)
  have one : width E t = 1 → ∃ m', execGet s m (.get (varKind E t) var idx) = .ok m' ∧
      (∀ i, i < width E t → m' (varKind E t) (var + i) = (f i).2) ∧
      ∀ k i, ¬ (k = varKind E t ∧ var ≤ i ∧ i < var + width E t) → m' k i = m k i := by
    intro hw
    have hr := read_ok (ha 0 (by omega))
    rw [hk 0 (by omega), Nat.add_zero] at hr
    refine ⟨m.set (varKind E t) var (f 0).2, by simp only [execGet, hm, hr, Out.ok_bind], ?_, ?_⟩
    · intro i hi
      have : i = 0 := by omega
      subst this
      simp [Mem.set]
    · intro k i hi
      simp only [Mem.set]
      rw [if_neg (fun hh => hi ⟨hh.1, by omega, by omega⟩)]
  cases sorted hE ht with
  | num h1 h2 h3 h4 h0 h5 h6 =>
    have hkk : varKind E t = numKind t.bt := by simp [varKind, h1, h4, h5, h6]
    obtain ⟨m', e, r1, r2⟩ := one (by simp [width, h6])
    refine ⟨.get (varKind E t) var idx, m', ?_, e, r1, r2⟩
    simp [getOp, h3, h4, h0, hm, hkk, (numKind_ne h2).1]
  | obj h1 h2 h3 h4 h5 h6 h7 h8 h9 =>
    have hkk : varKind E t = .object := by simp [varKind, h1]
    obtain ⟨m', e, r1, r2⟩ := one (by simp [width, h5])
    refine ⟨.get (varKind E t) var idx, m', ?_, e, r1, r2⟩
    rw [hkk]
    unfold getOp
    have : t.dim = 0 ∨ t.dim = 1 ∨ t.dim = 2 := by omega
    rcases this with h | h | h
    · rw [if_pos h, if_neg (by simp [h3])]
      rcases h6 h with hc | hc | hc | hc <;> simp [hc, hm]
    · rw [if_neg (by omega), if_pos h, hm]
      cases hc : cat E.w t.bt <;> simp_all
    · rw [if_neg (by omega), if_neg (by omega), if_pos h, hm]
  | ref h1 h2 h3 h4 h5 h6 =>
    have hkk : varKind E t = .ref := by simp [varKind, h1, h4]
    obtain ⟨m', e, r1, r2⟩ := one (by simp [width, h5])
    refine ⟨.get (varKind E t) var idx, m', ?_, e, r1, r2⟩
    rw [hkk]
    unfold getOp
    rw [if_pos h2, if_pos h1, if_pos h3, hm]
  | mul h1 h2 h3 h4 h5 h6 h7 =>
    have hw : width E t = (E.mul t.bt).2 := by simp [width, h1]
    have hkk : varKind E t = (E.mul t.bt).1 := by simp [varKind, h1, h4, h6]
    obtain ⟨m', e, r1, r2⟩ := getMul_ok (var := var) (width E t) m ha hk
    refine ⟨.mul (varKind E t) var (width E t * 256 + idx), m', ?_, ?_, r1, r2⟩
    · unfold getOp
      rw [if_pos h3, if_neg (by simp [h4])]
      simp only [h5, hm, hkk, ← hw]
      rw [Nat.mod_eq_of_lt (by omega)]
    · simp only [execGet]
      rw [show (width E t * 256 + idx) % 256 = idx by omega, show (width E t * 256 + idx) / 256 = width E t by omega]
      exact e

/-- The variables of the parameters lie apart. -/
def Apart (E : Env) (ps : List (Param φ)) (vars : List Nat) : Prop :=
  ∀ (a b : Nat) (p q : Param φ) (v w : Nat), a < b → ps[a]? = some p → ps[b]? = some q → vars[a]? = some v → vars[b]? = some w →
    varKind E p.ty = varKind E q.ty → v + width E p.ty ≤ w

theorem getCode_ok {E : Env} (hE : EnvOk E) (s : List (Cell φ)) : ∀ (ps : List (Param φ)) (vars : List Nat) (idx : Nat) (g : Nat → Nat → Cell φ)
    (m : Mem φ), (∀ p ∈ ps, VarTy E.w p.ty ∧ p.ty.dim ≤ 2) → vars.length = ps.length → Apart E ps vars → idx + total E ps ≤ 255 →
    (∀ (j : Nat) (p : Param φ), ps[j]? = some p → At s (idx + total E (ps.take j)) (width E p.ty) (g j)) →
    (∀ (j : Nat) (p : Param φ) (i : Nat), ps[j]? = some p → i < width E p.ty → (g j i).1 = varKind E p.ty) →
    ∃ code m', getCode E ps vars idx = .ok code ∧ execGets s code m = .ok m' ∧
      (∀ (j : Nat) (p : Param φ) (v i : Nat), ps[j]? = some p → vars[j]? = some v → i < width E p.ty →
        m' (varKind E p.ty) (v + i) = (g j i).2) ∧
      ∀ k i, (∀ (j : Nat) (p : Param φ) (v : Nat), ps[j]? = some p → vars[j]? = some v →
        ¬ (k = varKind E p.ty ∧ v ≤ i ∧ i < v + width E p.ty)) → m' k i = m k i := by
  intro ps
  induction ps with
  | nil =>
    intro vars idx g m _ _ _ _ _ _
    exact ⟨[], m, rfl, rfl, by intro j p v i h; simp at h, fun _ _ _ => rfl⟩
  | cons p ps ih =>
    intro vars idx g m hv hl hap hb hf hk
    cases vars with
    | nil => simp at hl
    | cons v vars =>
      simp only [total] at hb
      have f0 := hf 0 p rfl
      simp only [List.take_zero, total, Nat.add_zero] at f0
      obtain ⟨o, m1, e1, e2, r1, r2⟩ := getOp_ok hE (hv p (by simp)).1 (hv p (by simp)).2 (var := v) (by omega) f0 (fun i hi => hk 0 p i rfl hi) m
      obtain ⟨code, m2, e3, e4, r3, r4⟩ := ih vars (idx + width E p.ty) (fun j => g (j + 1)) m1 (fun q hq => hv q (List.mem_cons_of_mem _ hq))
        (by simpa using hl)
        (fun a b p' q' v' w' hab h1 h2 h3 h4 => hap (a + 1) (b + 1) p' q' v' w' (by omega) (by simpa using h1) (by simpa using h2) (by simpa using h3) (by simpa using h4))
        (by omega)
        (fun j q hq => by
          have := hf (j + 1) q (by simpa using hq)
          simpa only [List.take_succ_cons, total, Nat.add_assoc] using this)
        (fun j q i hq hi => hk (j + 1) q i (by simpa using hq) hi)
      refine ⟨o :: code, m2, ?_, ?_, ?_, ?_⟩
      · simp only [getCode, e1, e3, Out.ok_bind]
      · simp only [execGets, e2, e4, Out.ok_bind]
      · intro j q w i h1 h2 hi
        cases j with
        | zero =>
          simp only [List.getElem?_cons_zero, Option.some.injEq] at h1 h2
          subst h1 h2
          rw [r4 _ _ ?_]
          · exact r1 i hi
          · intro j q w h1 h2 hh
            have := hap 0 (j + 1) p q v w (by omega) rfl (by simpa using h1) rfl (by simpa using h2) hh.1
            omega
        | succ j =>
          simp only [List.getElem?_cons_succ] at h1 h2
          exact r3 j q w i h1 h2 hi
      · intro k i h
        rw [r4 k i (fun j q w h1 h2 => h (j + 1) q w (by simpa using h1) (by simpa using h2))]
        exact r2 k i (h 0 p v rfl rfl)

/-- The places that the compiler gives to the parameters. -/
theorem paramVars_ok {E : Env} (hE : EnvOk E) (ps : List (Param φ)) (others : List Decl) (hv : ∀ p ∈ ps, VarTy E.w p.ty) :
    (paramVars E ps others).length = ps.length ∧ Apart E ps (paramVars E ps others) := by
  obtain ⟨h1, -, -, h4⟩ := Vars.allocVars_spec (ps.map (fun p => (⟨"", varKind E p.ty, width E p.ty⟩ : Decl)) ++ others) 0 (fun _ => []) (by simp)
  refine ⟨?_, ?_⟩
  · simp only [paramVars, List.length_take, h1]
    simp
  · intro a b p q v w hab hp hq hva hwb hk
    have la : a < ps.length := (List.getElem?_eq_some_iff.1 hp).1
    have lb : b < ps.length := (List.getElem?_eq_some_iff.1 hq).1
    simp only [paramVars, List.getElem?_take] at hva hwb
    rw [if_pos la] at hva
    rw [if_pos lb] at hwb
    have da : (ps.map (fun p => (⟨"", varKind E p.ty, width E p.ty⟩ : Decl)) ++ others)[a]? = some ⟨"", varKind E p.ty, width E p.ty⟩ := by
      rw [List.getElem?_append_left (by simpa using la)]; simp [hp]
    have db : (ps.map (fun p => (⟨"", varKind E p.ty, width E p.ty⟩ : Decl)) ++ others)[b]? = some ⟨"", varKind E q.ty, width E q.ty⟩ := by
      rw [List.getElem?_append_left (by simpa using lb)]; simp [hq]
    exact h4 a b _ _ v w hab da db hva hwb hk (varKind_ne hE (hv p (List.mem_of_getElem? hp))) (width_pos hE) (width_pos hE)

end Args
end SPVM
