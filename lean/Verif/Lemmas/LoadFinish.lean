import Verif.Lemmas.LoadComp
/-! Whole compilations. -/
namespace SPVM
namespace Load
open VM (Bytes)
open Spec.Load (Occurs NameOk First HasSource Absent Mentions Setting Needed Loaded Defines WellFormed Refers Loadable Resolved Safe
  basicTypes defaultClasses defaultSources settingOf Added)

theorem Cons.nodup {types sym} (h : Cons types sym) : (types.map (·.name)).Nodup := by
  unfold List.Nodup
  rw [List.pairwise_iff_getElem]
  intro i j hi hj hij heq
  rw [List.length_map] at hi hj
  rw [List.getElem_map, List.getElem_map] at heq
  have h1 := (h types[j].name i).2 ⟨types[i], List.getElem?_eq_getElem hi, heq⟩
  have h2 := (h types[j].name j).2 ⟨types[j], List.getElem?_eq_getElem hj, rfl⟩
  rw [h1] at h2
  cases h2
  omega

theorem spec_anonName (m : Bytes) (l c : Nat) : Spec.Load.anonName m l c = anonName m l c := by
  unfold Spec.Load.anonName anonName
  rw [mark_method, mark_colons]

/-- The end of the loop. -/
structure Done (c : Comp) (S : Setting) (r : Run) : Prop where
  loadable : Loadable S
  resolved : r.refs.all (resolved r) = true ↔ Resolved S
  added : Added c.types S (r.types.drop c.types.length)

theorem done_of_inv (c : Comp) (fs : List File) (ds : Dirs) (name : Option Bytes) (hc : Cons c.types c.sym)
    (hplain : ∀ n q, Needed (settingOf c.types fs ds name) n q → ¬ Occurs (Spec.Load.bytes "::anon_method::") n)
    (r : Run) (seen) (hI : Inv (begin' c fs name) ds (settingOf c.types fs ds name) r seen) (hq : r.queue = []) :
    Done c (settingOf c.types fs ds name) r := by
  have hb := begin_spec c fs name
  have hold : ∀ n, (settingOf c.types fs ds name).old n ↔ ((begin' c fs name).sym n).isSome = true := by
    intro n
    rw [← setting_eq c fs ds name hc]
    exact Iff.rfl
  have huniq : ∀ n s s', (settingOf c.types fs ds name).src n s → (settingOf c.types fs ds name).src n s' → s = s' := by
    rw [← setting_eq c fs ds name hc]
    intro n s s' h h'
    exact src_unique h h'
  have hsa : ∀ n s, (settingOf c.types fs ds name).src n s → ¬ (settingOf c.types fs ds name).absent n := by
    rw [← setting_eq c fs ds name hc]
    rintro n s ⟨b, h⟩ h'
    exact absurd (h.symm.trans h') (by simp)
  generalize hS : settingOf c.types fs ds name = S at *
  have hseen : ∀ n q, Needed S n q → seen (n, q) := by
    intro n q h
    induction h with
    | root h =>
      rcases hI.roots _ h with h | h
      · rw [hq] at h; cases h
      · exact h
    | mention _ ho hs hm ih =>
      rcases hI.closed _ _ _ _ _ ih ho hs hm with h | h
      · rw [hq] at h; cases h
      · exact h
  have hL : Loadable S := by
    refine ⟨fun n q h => hI.names _ (hseen n q h), fun n q h ho => ?_, fun n q s h ho hs => hI.wf n q s (hseen n q h) ho hs⟩
    exact hI.found n q (hseen n q h) ho
  have hcls : ∀ n q s, seen (n, q) → ¬ S.old n → S.src n s → (∃ is nm p refs, s.body = .cls is nm p refs) → Loaded S n s :=
    fun n q s h ho hs hb => ⟨⟨q, hI.needed _ h⟩, ho, hs, hb⟩
  have hanon : ∀ n q s is e, Loaded S n s → seen (n, q) → (∃ nm p refs, s.body = .cls is nm p refs) → IsAnon n is e →
      ∃ l cc, .anon l cc ∈ is ∧ e.name = Spec.Load.anonName n l cc := by
    rintro n q s is e _ _ _ ⟨_, _, l, cc, h, hn⟩
    exact ⟨l, cc, h, by rw [spec_anonName]; exact hn⟩
  have hnot : ∀ n s is nm p refs, Loaded S n s → s.body = .cls is nm p refs → ∀ l cc, .anon l cc ∈ is → anonCls n = false := by
    rintro n s is nm p refs ⟨⟨q, hq⟩, ho, hs, _⟩ hb l cc hmem
    cases ha : anonCls n with
    | false => rfl
    | true =>
      rcases (hL.sources n q s hq ho hs).2 with h | ⟨is', nm', p', refs', h, _, h1, _⟩
      · rw [hb] at h; cases h
      · rw [hb] at h
        cases h
        exact absurd hmem ((h1 ((anonCls_iff n).1 ha)).2 l cc)
  have hsym := hI.sym hold (hb.cons hc)
  have hdef : ∀ n, Defines S n → (r.sym n).isSome = true := by
    rintro n ⟨m, s, hl, h⟩
    obtain ⟨⟨q, hn⟩, ho, hs, is, nm, p, refs, hb⟩ := id hl
    rcases h with rfl | ⟨is', nm', p', refs', l, cc, hb', hm, rfl⟩
    · exact hI.has n q s _ (hseen n q hn) ho hs ⟨is, nm, p, refs, hb, .inl rfl⟩
    · have := hI.has m q s { name := anonName m l cc, src := none } (hseen m q hn) ho hs
        ⟨is', nm', p', refs', hb', .inr ⟨hnot m s _ _ _ _ hl hb' l cc hm, rfl, l, cc, hm, rfl⟩⟩
      rw [spec_anonName]
      exact this
  have hsym' : ∀ n, (r.sym n).isSome = true ↔ S.old n ∨ Defines S n := by
    intro n
    constructor
    · intro h
      rcases (hsym n).1 h with h | ⟨m, q, s, e, h1, h2, h3, ⟨is, nm, p, refs, hb, h4⟩, h5⟩
      · exact .inl h
      · have hl := hcls m q s h1 h2 h3 ⟨is, nm, p, refs, hb⟩
        right
        refine ⟨m, s, hl, ?_⟩
        rcases h4 with rfl | ⟨_, _, l, cc, hm, hn⟩
        · exact .inl h5.symm
        · exact .inr ⟨is, nm, p, refs, l, cc, hb, hm, by rw [spec_anonName, ← hn, h5]⟩
    · rintro (h | h)
      · exact (hsym n).2 (.inl h)
      · exact hdef n h
  obtain ⟨a, ha, hnew⟩ := hI.new
  obtain ⟨b0, hb0, hcore⟩ := hb.add
  have htypes : r.types = c.types ++ (b0 ++ a) := by rw [ha, hb0, List.append_assoc]
  have hdrop : r.types.drop c.types.length = b0 ++ a := by rw [htypes]; simp
  have holdT : ∀ n, S.old n ↔ ∃ e ∈ c.types ++ b0, e.name = n := by
    intro n
    rw [hold, (hb.cons hc).isSome, hb0]
  have hfresh : ∀ e ∈ c.types ++ (b0 ++ a), ¬ S.old e.name → e ∈ a := by
    intro e he ho
    rw [← List.append_assoc] at he
    rcases List.mem_append.1 he with h | h
    · exact absurd ((holdT _).2 ⟨e, h, rfl⟩) ho
    · exact h
  have hAdds : ∀ e ∈ a, ¬ S.old e.name ∧ ((∃ s, e.src = some s ∧ Loaded S e.name s) ∨
    (e.src = none ∧ ∃ m s is nm p refs l cc, Loaded S m s ∧ s.body = .cls is nm p refs ∧ .anon l cc ∈ is ∧ e.name = Spec.Load.anonName m l cc)) := by
    intro e he
    constructor
    · intro ho
      obtain ⟨e', he', hn⟩ := (holdT _).1 ho
      have hnd := hI.cons.nodup
      rw [htypes, ← List.append_assoc, List.map_append, List.nodup_append] at hnd
      exact hnd.2.2 e'.name (List.mem_map_of_mem he') e.name (List.mem_map_of_mem he) hn
    · obtain ⟨m, q, s, h1, h2, h3, is, nm, p, refs, hb, h4⟩ := hnew e he
      have hl := hcls m q s h1 h2 h3 ⟨is, nm, p, refs, hb⟩
      rcases h4 with rfl | ⟨h5, h6, l, cc, hm, hn⟩
      · exact .inl ⟨s, rfl, hl⟩
      · exact .inr ⟨h6, m, s, is, nm, p, refs, l, cc, hl, hb, hm, by rw [spec_anonName]; exact hn⟩
  refine ⟨hL, ?_, ?_⟩
  · rw [List.all_eq_true]
    have hmiss : ∀ t, t ∈ r.missing ↔ Needed S t true ∧ ¬ S.old t ∧ S.absent t := by
      intro t
      rw [hI.missing]
      constructor
      · rintro ⟨h1, h2, h3⟩; exact ⟨hI.needed _ h1, h2, h3⟩
      · rintro ⟨h1, h2, h3⟩; exact ⟨hseen t true h1, h2, h3⟩
    have hres : ∀ t, resolved r t = true ↔ S.old t ∨ Defines S t ∨ (Needed S t true ∧ S.absent t) := by
      intro t
      unfold resolved
      rw [Bool.or_eq_true, hsym', List.contains_iff_mem, hmiss]
      constructor
      · rintro ((h | h) | ⟨h1, h2, h3⟩)
        · exact .inl h
        · exact .inr (.inl h)
        · exact .inr (.inr ⟨h1, h3⟩)
      · rintro (h | h | ⟨h1, h2⟩)
        · exact .inl (.inl h)
        · exact .inl (.inr h)
        · by_cases ho : (r.sym t).isSome = true
          · exact .inl ((hsym' t).1 ho)
          · exact .inr ⟨h1, fun h => ho ((hsym' t).2 (.inl h)), h2⟩
    constructor
    · intro h t ht
      refine (hres t).1 (h t ((hI.refs t).2 ?_))
      rcases ht with ht | ⟨n, s, hl, ht⟩
      · exact .inl ht
      · obtain ⟨⟨q, hn⟩, ho, hs, is, nm, p, refs, hb⟩ := hl
        refine .inr ⟨n, q, s, hseen n q hn, ho, hs, is, nm, p, refs, hb, ?_⟩
        rcases ht with ⟨is', nm', p', refs', hb', ht⟩ | ht
        · rw [hb] at hb'
          cases hb'
          exact .inr (.inl ht)
        · exact .inr (.inr (.inl ht))
    · intro h t ht
      rw [hres]
      rcases (hI.refs t).1 ht with ht | ⟨n, q, s, h1, h2, h3, is, nm, p, refs, hb, h4⟩
      · exact h t (.inl ht)
      · have hl := hcls n q s h1 h2 h3 ⟨is, nm, p, refs, hb⟩
        rcases h4 with rfl | h4 | h4 | ⟨_, l, cc, hm, h4⟩
        · exact .inr (.inl ⟨t, s, hl, .inl rfl⟩)
        · exact h t (.inr ⟨n, s, hl, .inl ⟨is, nm, p, refs, hb, h4⟩⟩)
        · exact h t (.inr ⟨n, s, hl, .inr h4⟩)
        · exact .inr (.inl ⟨n, s, hl, .inr ⟨is, nm, p, refs, l, cc, hb, hm, by rw [spec_anonName]; exact h4⟩⟩)
  · rw [hdrop]
    refine ⟨?_, ?_, ?_, ?_, ?_⟩
    · intro n s hl
      obtain ⟨e, he, hn⟩ := (hI.cons.isSome n).1 (hdef n ⟨n, s, hl, .inl rfl⟩)
      rw [htypes] at he
      subst hn
      have hea := hfresh e he hl.2.1
      rcases (hAdds e hea).2 with ⟨s', h1, h2⟩ | ⟨_, m, s', is, nm, p, refs, l, cc, _, _, _, hn⟩
      · cases huniq _ _ _ hl.2.2.1 h2.2.2.1
        rw [← h1]
        exact List.mem_append_right _ hea
      · obtain ⟨q, hneed⟩ := hl.1
        refine absurd ?_ (hplain _ _ hneed)
        rw [hn, spec_anonName, mark_method]
        exact anonName_mark m l cc
    · intro n hd
      obtain ⟨e, he, hn⟩ := (hI.cons.isSome n).1 (hdef n hd)
      rw [htypes] at he
      by_cases ho : e ∈ a
      · exact .inr ⟨e, List.mem_append_right _ ho, hn⟩
      · rw [← List.append_assoc] at he
        rcases List.mem_append.1 he with h | h
        · exact .inl ((holdT n).2 ⟨e, h, hn⟩)
        · exact absurd h ho
    · intro hz n hn
      have : S.old n := by rw [← hS]; exact .inr ⟨hz, hn⟩
      obtain ⟨e, he, hen⟩ := (holdT n).1 this
      rw [hz, List.nil_append] at he
      obtain ⟨_, h1, _⟩ := hcore e he
      subst hen
      rw [← h1]
      exact List.mem_append_left _ he
    · intro e he
      rcases List.mem_append.1 he with h | h
      · exact .inl (hcore e h)
      · exact .inr (hAdds e h).2
    · rw [← htypes]
      exact hI.cons.nodup

/-! ## The end -/

theorem drop_sym {types a : List Entry} {sym sym' : Bytes → Option Nat} (h : Cons types sym) (h' : Cons (types ++ a) sym') :
    a.foldl (fun (sym : Bytes → Option Nat) e => fun x => if x = e.name then none else sym x) sym' = sym := by
  have key : ∀ (a : List Entry) (sym : Bytes → Option Nat) x,
      a.foldl (fun (sym : Bytes → Option Nat) e => fun x => if x = e.name then none else sym x) sym x =
      if x ∈ a.map (·.name) then none else sym x := by
    intro a
    induction a with
    | nil => intro sym x; simp
    | cons e a ih =>
      intro sym x
      rw [List.foldl_cons, ih, List.map_cons]
      by_cases h1 : x = e.name
      · simp [h1]
      · by_cases h2 : x ∈ a.map (·.name)
        · rw [if_pos h2, if_pos (List.mem_cons_of_mem _ h2)]
        · rw [if_neg h2, if_neg h1, if_neg (by simp only [List.mem_cons, not_or]; exact ⟨h1, h2⟩)]
  funext x
  rw [key]
  have hnd := h'.nodup
  rw [List.map_append, List.nodup_append] at hnd
  split
  · rename_i hx
    symm
    rw [h.none]
    intro e he hn
    exact hnd.2.2 e.name (List.mem_map_of_mem he) x hx hn
  · rename_i hx
    cases hs : sym x with
    | some i =>
      obtain ⟨e, he, hn⟩ := (h x i).1 hs
      rw [h' x i]
      exact ⟨e, by rw [List.getElem?_append_left (List.getElem?_eq_some_iff.1 he).1]; exact he, hn⟩
    | none =>
      rw [h'.none]
      intro e he hn
      rcases List.mem_append.1 he with he | he
      · exact (h.none x).1 hs e he hn
      · exact hx (List.mem_map.2 ⟨e, he, hn⟩)

theorem rollback_spec (c : Comp) (r : Run) (owned : Option Bytes) (hc : Cons c.types c.sym) (hr : Cons r.types r.sym)
    (ha : ∃ a, r.types = c.types ++ a) :
    (rollback c r owned).types = c.types ∧ (rollback c r owned).sym = c.sym ∧ (rollback c r owned).anons = c.anons ∧
    (rollback c r owned).runtime = c.runtime := by
  obtain ⟨a, ha⟩ := ha
  refine ⟨?_, ?_, rfl, rfl⟩
  · simp [rollback, ha]
  · simp only [rollback]
    rw [ha, List.drop_left]
    exact drop_sym hc (by rw [← ha]; exact hr)

/-- Whatever the loop does, `finish` either restores the state or extends it. -/
theorem finish_cases (chk : List Entry → List Entry → Bool) (ds : Dirs) (c : Comp) (fs : List File) (name owned : Option Bytes) (anons : Nat)
    (hc : Cons c.types c.sym) (c' : Comp) (ok : Bool) (h : finish chk ds c (begin' c fs name) anons owned = .ok (c', ok)) :
    ∃ r b, load ds (fuel ds (begin' c fs name)) (begin' c fs name) = .ok (r, b) ∧
      Cons r.types r.sym ∧ (∃ a, r.types = c.types ++ a) ∧
      ((ok = false ∧ c' = rollback c r owned) ∨ (ok = true ∧ c' = commit c r anons)) ∧
      (ok = true ↔ b = false ∧ r.errs = false ∧ r.refs.all (resolved r) = true ∧ chk c.types (r.types.drop c.types.length) = true) := by
  unfold finish at h
  cases hl : load ds (fuel ds (begin' c fs name)) (begin' c fs name) with
  | die m => rw [hl] at h; cases h
  | ub => rw [hl] at h; cases h
  | ok rb =>
    obtain ⟨r, b⟩ := rb
    rw [hl] at h
    have hw := load_went _ _ _ _ _ hl
    have hb := begin_spec c fs name
    refine ⟨r, b, rfl, hw.cons (hb.cons hc), ?_, ?_⟩
    · obtain ⟨a, ha⟩ := hw.add
      obtain ⟨a0, ha0, _⟩ := hb.add
      exact ⟨a0 ++ a, by rw [ha, ha0, List.append_assoc]⟩
    · simp only [Out.ok_bind] at h
      split at h
      · rename_i hcond
        cases h
        refine ⟨.inl ⟨rfl, rfl⟩, ?_⟩
        simp only [Bool.or_eq_true, Bool.not_eq_true'] at hcond
        constructor
        · intro h; cases h
        · rintro ⟨h1, h2, h3, h4⟩
          rw [h1, h2, h3, h4] at hcond
          simp at hcond
      · rename_i hcond
        cases h
        refine ⟨.inr ⟨rfl, rfl⟩, ?_⟩
        simp only [Bool.or_eq_true, Bool.not_eq_true', not_or, Bool.not_eq_true, Bool.not_eq_false] at hcond
        simp [hcond]

/-- A compilation with the file list `fs`. -/
theorem finish_spec (chk : List Entry → List Entry → Bool) (ds : Dirs) (c : Comp) (fs : List File) (name owned : Option Bytes) (anons : Nat)
    (hc : Cons c.types c.sym) (hlive : ∀ f ∈ fs, f.live = true)
    (hsafe : ∀ n s, (settingOf c.types fs ds name).src n s → Safe n s) :
    ∃ c' ok, finish chk ds c (begin' c fs name) anons owned = .ok (c', ok) ∧
    ((∀ n q, Needed (settingOf c.types fs ds name) n q → ¬ Occurs (Spec.Load.bytes "::anon_method::") n) →
      ∃ new, (ok = true ↔ Loadable (settingOf c.types fs ds name) ∧ Resolved (settingOf c.types fs ds name) ∧ chk c.types new = true) ∧
        (Loadable (settingOf c.types fs ds name) → Added c.types (settingOf c.types fs ds name) new) ∧
        (ok = true → c'.types = c.types ++ new)) := by
  have hb := begin_spec c fs name
  have hl0 : ∀ n, liveOf fs n = true := by
    intro n
    unfold liveOf
    cases hg : getFile fs n with
    | none => rfl
    | some f => exact hlive f (List.mem_of_find?_eq_some hg)
  have hlive' : ∀ n x b, view (begin' c fs name).files ds n = some (x, b) → b = true := by
    intro n x b h
    rw [hb.files] at h
    have hv : ∀ x b, view fs ds n = some (x, b) → b = true := by
      intro x b h
      unfold view at h
      cases hg : getFile fs n with
      | some f =>
        rw [hg] at h
        cases h
        exact hlive f (List.mem_of_find?_eq_some hg)
      | none =>
        rw [hg] at h
        cases hs : search ds n with
        | none => rw [hs] at h; cases h
        | some s => rw [hs] at h; cases h; rfl
    split at h
    · by_cases hd : n ∈ defaultClasses
      · obtain ⟨s, hs⟩ := (default_classes n).1 hd
        rw [(view_defaults fs ds n).1 s hs] at h
        cases h
        exact hl0 n
      · rw [(view_defaults fs ds n).2 hd] at h
        exact hv x b h
    · exact hv x b h
  have hse := setting_eq c fs ds name hc
  obtain ⟨r, b, hload⟩ := load_ends (begin' c fs name) ds hlive'
    (fun n s b h => hsafe n s (by rw [← hse]; exact ⟨b, h⟩)) (fuel ds (begin' c fs name)) (begin' c fs name) (hb.cons hc) (fun _ => rfl)
    (fuel_enough _ _)
  have hex : ∃ c' ok, finish chk ds c (begin' c fs name) anons owned = .ok (c', ok) := by
    unfold finish
    rw [hload]
    simp only [Out.ok_bind]
    split <;> exact ⟨_, _, rfl⟩
  obtain ⟨c', ok, hfin⟩ := hex
  refine ⟨c', ok, hfin, fun hplain => ?_⟩
  obtain ⟨r', b', hload', hcr, ⟨a, ha⟩, hcase, hok⟩ := finish_cases chk ds c fs name owned anons hc c' ok hfin
  rw [hload] at hload'
  cases hload'
  have hspec := load_spec (begin' c fs name) ds (defaultClasses ++ name.toList) (hb.cons hc)
    ⟨hlive', fun n s h => hsafe n s (by rw [← hse]; exact h), fun n q h => hplain n q (by rw [← hse]; exact h)⟩
    (fuel ds (begin' c fs name)) (begin' c fs name) (fun _ => False) r b (by rw [hse]; exact begin_inv c fs ds name hc) hload
  rw [hse] at hspec
  have hdone : b = false → r.errs = false → Done c (settingOf c.types fs ds name) r := by
    intro h1 h2
    obtain ⟨seen, hI, hq⟩ := hspec.1 h1 h2
    exact done_of_inv c fs ds name hc hplain r seen hI hq
  refine ⟨r.types.drop c.types.length, ?_, ?_, ?_⟩
  · rw [hok]
    constructor
    · rintro ⟨h1, h2, h3, h4⟩
      have d := hdone h1 h2
      exact ⟨d.loadable, d.resolved.1 h3, h4⟩
    · rintro ⟨h1, h2, h3⟩
      obtain ⟨e1, e2⟩ := hspec.2 h1
      have d := hdone e1 e2
      exact ⟨e1, e2, d.resolved.2 h2, h3⟩
  · intro h
    obtain ⟨e1, e2⟩ := hspec.2 h
    exact (hdone e1 e2).added
  · intro h
    rcases hcase with ⟨h', _⟩ | ⟨_, rfl⟩
    · rw [h] at h'; cases h'
    · show r.types = _
      rw [ha]
      simp

end Load
end SPVM
