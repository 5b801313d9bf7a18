import Verif.Props.Body
/-!
# Programs: lemmas for C78
-/
namespace SPVM
namespace Expr
open Flow (Vm)

/-! ## More and more operation codes -/

/-- `L` says what the oracles `K n` do for all large `n`. -/
def Settles {φ} (K : Nat → Oracle φ) (L : Oracle φ) : Prop := ∀ f w d r, L f w d = some r → ∃ n0, ∀ n, n0 ≤ n → K n f w d = some r

theorem limit_exists {φ} (K : Nat → Oracle φ) : ∃ L : Oracle φ, Settles K L ∧ ∀ f w d r, (∃ n0, ∀ n, n0 ≤ n → K n f w d = some r) → L f w d = some r := by
  have h : ∀ f w d, ∃ o : Option (Side φ × Nat), (∀ r, o = some r → ∃ n0, ∀ n, n0 ≤ n → K n f w d = some r) ∧
      ∀ r, (∃ n0, ∀ n, n0 ≤ n → K n f w d = some r) → o = some r := by
    intro f w d
    by_cases he : ∃ r n0, ∀ n, n0 ≤ n → K n f w d = some r
    · obtain ⟨r, n0, hr⟩ := he
      refine ⟨some r, fun r' h => by cases h; exact ⟨n0, hr⟩, fun r' ⟨n1, h1⟩ => ?_⟩
      have a := hr (n0 + n1) (by omega)
      rw [h1 (n0 + n1) (by omega)] at a
      exact a.symm
    · exact ⟨none, fun r h => (by cases h), fun r hr => absurd ⟨r, hr⟩ he⟩
  refine ⟨fun f w d => Classical.choose (h f w d), fun f w d r hr => (Classical.choose_spec (h f w d)).1 r hr, fun f w d r hr => (Classical.choose_spec (h f w d)).2 r hr⟩

theorem exec_settles {φ} (F : Fl φ) (O : Objs) (T : List (XInstr φ)) {K : Nat → Oracle φ} {L : Oracle φ} (h : Settles K L) (k : Nat) (m : BMem φ) :
    execAt F O L T k m = (none, 0) ∨ ∃ n0, ∀ n, n0 ≤ n → execAt F O (K n) T k m = execAt F O L T k m := by
  cases m with
  | none => exact .inl rfl
  | some x =>
    obtain ⟨m, d⟩ := x
    simp only [execAt]
    cases hk : T[k]? with
    | none => exact .inl rfl
    | some i =>
      cases i with
      | invoke f w =>
        simp only [xexec]
        cases hL : L f w d with
        | none => exact .inl rfl
        | some r =>
          obtain ⟨n0, h0⟩ := h f w d r hL
          exact .inr ⟨n0, fun n hn => by rw [h0 n hn]⟩
      | _ => exact .inr ⟨0, fun n _ => rfl⟩

theorem step_lost {φ} (F : Fl φ) (O : Objs) (K : Oracle φ) (T : List (XInstr φ)) (code : List Flow.Op) (limit : Nat) (v v' : Vm (BMem φ)) (h : v.st.mem = none)
    (hs : v.step (interp F O K T) code limit = .go v' ∨ v.step (interp F O K T) code limit = .done v') : v'.st.mem = none := by
  unfold Vm.step at hs
  split at hs
  all_goals
    try split at hs
    all_goals
      rcases hs with hs | hs <;> cases hs <;> simp [interp, h, execAt, Flow.State.release]

theorem run_lost {φ} (F : Fl φ) (O : Objs) (K : Oracle φ) (T : List (XInstr φ)) (code : List Flow.Op) (limit : Nat) (k : Nat) : ∀ (v v' : Vm (BMem φ)), v.st.mem = none →
    v.run (interp F O K T) code limit k = .done v' → v'.st.mem = none := by
  induction k with
  | zero => intro v v' _ h; cases h
  | succ k ih =>
    intro v v' hv h
    rw [Vm.run] at h
    cases hs : v.step (interp F O K T) code limit with
    | go u => rw [hs] at h; exact ih u v' (step_lost F O K T code limit v u hv (.inl hs)) h
    | done u => rw [hs] at h; cases h; exact step_lost F O K T code limit v _ hv (.inr hs)
    | ub => rw [hs] at h; cases h

theorem step_settles {φ} (F : Fl φ) (O : Objs) (T : List (XInstr φ)) (code : List Flow.Op) (limit : Nat) {K : Nat → Oracle φ} {L : Oracle φ} (h : Settles K L) (v : Vm (BMem φ)) :
    (∃ v', v.step (interp F O L T) code limit = .go v' ∧ v'.st.mem = none) ∨
      ∃ n0, ∀ n, n0 ≤ n → v.step (interp F O (K n) T) code limit = v.step (interp F O L T) code limit := by
  unfold Vm.step
  cases hc : code[v.pc]? with
  | none => exact .inr ⟨0, fun _ _ => rfl⟩
  | some i =>
    cases i with
    | act k =>
      rcases exec_settles F O T h k v.st.mem with e | ⟨n0, e⟩
      · exact .inl ⟨_, rfl, by simp [interp, e]⟩
      · exact .inr ⟨n0, fun n hn => by simp only [interp, e n hn]⟩
    | call k =>
      rcases exec_settles F O T h k v.st.mem with e | ⟨n0, e⟩
      · exact .inl ⟨_, rfl, by simp [interp, e]⟩
      · exact .inr ⟨n0, fun n hn => by simp only [interp, e n hn]⟩
    | ret k t =>
      rcases exec_settles F O T h k v.st.mem with e | ⟨n0, e⟩
      · exact .inl ⟨_, rfl, by simp [interp, e]⟩
      · exact .inr ⟨n0, fun n hn => by simp only [interp, e n hn]⟩
    | _ => exact .inr ⟨0, fun _ _ => rfl⟩

theorem run_settles {φ} (F : Fl φ) (O : Objs) (T : List (XInstr φ)) (code : List Flow.Op) (limit : Nat) {K : Nat → Oracle φ} {L : Oracle φ} (h : Settles K L) (k : Nat) :
    ∀ (v v' : Vm (BMem φ)), v.run (interp F O L T) code limit k = .done v' → v'.st.mem ≠ none →
      ∃ n0, ∀ n, n0 ≤ n → v.run (interp F O (K n) T) code limit k = .done v' := by
  induction k with
  | zero => intro v v' h; cases h
  | succ k ih =>
    intro v v' hr hm
    rw [Vm.run] at hr
    rcases step_settles F O T code limit h v with ⟨u, h1, h2⟩ | ⟨n0, h0⟩
    · rw [h1] at hr
      exact absurd (run_lost F O L T code limit k u v' h2 hr) hm
    · cases hs : v.step (interp F O L T) code limit with
      | go u =>
        rw [hs] at hr
        obtain ⟨n1, h1⟩ := ih u v' hr hm
        refine ⟨n0 + n1, fun n hn => ?_⟩
        rw [Vm.run, h0 n (by omega), hs]
        exact h1 n (by omega)
      | done u => rw [hs] at hr; exact ⟨n0, fun n hn => by rw [Vm.run, h0 n hn, hs]; exact hr⟩
      | ub => rw [hs] at hr; cases hr

theorem run_more {τ} (I : Flow.Interp τ) (code : List Flow.Op) (limit : Nat) (k : Nat) : ∀ (n : Nat) (v v' : Vm τ), k ≤ n → v.run I code limit k = .done v' →
    v.run I code limit n = .done v' := by
  induction k with
  | zero => intro n v v' _ h; cases h
  | succ k ih =>
    intro n v v' hn h
    cases n with
    | zero => omega
    | succ n =>
      rw [Vm.run] at h ⊢
      cases hs : v.step I code limit with
      | go u => rw [hs] at h; exact ih n u v' (by omega) h
      | done u => rw [hs] at h; exact h
      | ub => rw [hs] at h; cases h

/-! ## The methods of the program -/

theorem compileAll_get {φ} (S : Nat → Option (Sig φ)) (gs : List (Meth φ)) : ∀ R : List (RMeth φ), compileAll S gs = .ok R → ∀ (f : Nat) (g : Meth φ), gs[f]? = some g →
    ∃ M T, compileMeth S g = .ok (M, T) ∧ R[f]? = some ⟨g.params.map Var.ty, g.defaults, M, T⟩ := by
  induction gs with
  | nil => intro R _ f g h; cases h
  | cons a gs ih =>
    intro R hR f g hg
    rw [compileAll] at hR
    cases h1 : compileMeth S a with
    | die msg => rw [h1] at hR; cases hR
    | ub => rw [h1] at hR; cases hR
    | ok x =>
      rw [h1, Out.ok_bind] at hR
      cases h2 : compileAll S gs with
      | die msg => rw [h2] at hR; cases hR
      | ub => rw [h2] at hR; cases hR
      | ok xs =>
        rw [h2, Out.ok_bind] at hR
        cases hR
        cases f with
        | zero => cases hg; exact ⟨x.1, x.2, h1, rfl⟩
        | succ f => exact ih xs h2 f g hg

theorem compileAll_ok {φ} (S : Nat → Option (Sig φ)) (gs : List (Meth φ)) (h : ∀ g ∈ gs, ∃ M T, compileMeth S g = .ok (M, T)) : ∃ R, compileAll S gs = .ok R := by
  induction gs with
  | nil => exact ⟨[], rfl⟩
  | cons a gs ih =>
    obtain ⟨M, T, h1⟩ := h a (List.mem_cons_self ..)
    obtain ⟨R, h2⟩ := ih (fun g hg => h g (List.mem_cons_of_mem _ hg))
    exact ⟨_, by rw [compileAll, h1, Out.ok_bind, h2, Out.ok_bind]; rfl⟩

theorem compileAll_die {φ} (S : Nat → Option (Sig φ)) (gs : List (Meth φ)) (h : ∀ g ∈ gs, (∃ M T, compileMeth S g = .ok (M, T)) ∨ ∃ msg, compileMeth S g = .die msg)
    (g : Meth φ) (hg : g ∈ gs) (hd : ∃ msg, compileMeth S g = .die msg) : ∃ msg, compileAll S gs = .die msg := by
  induction gs with
  | nil => cases hg
  | cons a gs ih =>
    rcases h a (List.mem_cons_self ..) with ⟨M, T, h1⟩ | ⟨msg, h1⟩
    · rcases List.mem_cons.1 hg with rfl | hg
      · obtain ⟨msg, hd⟩ := hd
        rw [h1] at hd; cases hd
      · obtain ⟨msg, h2⟩ := ih (fun g hg => h g (List.mem_cons_of_mem _ hg)) hg
        exact ⟨msg, by rw [compileAll, h1, Out.ok_bind, h2]; rfl⟩
    · exact ⟨msg, by rw [compileAll, h1]; rfl⟩

/-- Default values take the places of the arguments that are left out. -/
theorem passed {φ} (g : Meth φ) (hl : g.defaults.length ≤ g.params.length)
    (hd : ∀ i v x, g.params[g.params.length - g.defaults.length + i]? = some v → g.defaults[i]? = some x → HasTy v.ty x) (M : Flow.Method) (T : List (XInstr φ))
    (vs : List (Val φ)) (d : Side φ) (h : Fit g.sig vs d) :
    Passed g.params (g.sig.fill vs) { d with stack := setDefaults ⟨g.params.map Var.ty, g.defaults, M, T⟩ vs.length d.stack } := by
  obtain ⟨h1, h2, h3⟩ := h
  simp only [Meth.sig, List.length_map] at h1 h2 h3
  refine ⟨?_, fun i v x hv hx => ?_⟩
  · simp only [Sig.fill, Meth.sig, List.length_append, List.length_drop, List.length_map]; omega
  · have hi : i < g.params.length := by
      rcases Nat.lt_or_ge i g.params.length with h | h
      · exact h
      · rw [List.getElem?_eq_none h] at hv; cases hv
    simp only [Sig.fill, Meth.sig, List.length_map] at hx
    by_cases hn : i < vs.length
    · rw [List.getElem?_append_left hn] at hx
      have := h3 i v.ty x (by rw [List.getElem?_map, hv]; rfl) hx
      exact ⟨by simp only [setDefaults]; rw [if_neg (by omega)]; exact this.1, this.2⟩
    · rw [List.getElem?_append_right (by omega), List.getElem?_drop] at hx
      have e : g.defaults.length - (g.params.length - vs.length) + (i - vs.length) = i - (g.params.length - g.defaults.length) := by omega
      rw [e] at hx
      refine ⟨?_, hd (i - (g.params.length - g.defaults.length)) v x (by rw [show g.params.length - g.defaults.length + (i - (g.params.length - g.defaults.length)) = i by omega]; exact hv) hx⟩
      simp only [setDefaults, List.length_map]
      rw [if_pos (by omega), List.getElem?_map, hv, hx]
      rfl

end Expr
end SPVM
