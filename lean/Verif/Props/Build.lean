import Verif.Lemmas.Build

/-!
# C88: a build is made from the files as they are

Theorems about `SPVM::Builder` (Verif/Model/Build) in the words of Verif/Spec/Build.
-/

namespace SPVM.Build

variable {p : Proj β}

theorem clean_same (w : World β) : SameSrc w.fs (clean w).fs := fun n hn => if_neg hn

theorem clean_start {w : World β} (hi : Inv p w) : Start p (clean w) where
  none_built := fun n hn => if_pos hn
  past := by
    intro n f hf
    by_cases hn : Output n
    · have : (clean w).fs n = none := if_pos hn
      rw [this] at hf; cases hf
    · rw [clean_same w n hn] at hf; exact hi.past n f hf
  cls := by rw [clean_same w (.src p.cls) id]; exact hi.cls

theorem need_missing (fs : Fs β) (force : Bool) {out : Name} (is : List Name) (h : fs out = none) :
    needGenerate fs force out is = true := by
  unfold needGenerate; rw [h]; cases force <;> rfl

/-- The outputs of a build in an empty build directory. -/
theorem clean_outputs {w : World β} (dt : Name → Nat) {n : Name} {f : File β} (hn : Output n)
    (h : (build p false dt (clean w)).fs n = some f) :
    (n = .gen ∧ p.precomp = true) ∨ (∃ u ∈ idealUnits p w.fs, n = objOf u) ∨ (n = .lib ∧ idealUnits p w.fs ≠ []) := by
  have hnone : (clean w).fs n = none := if_pos hn
  have hU := (clean_same w).units (p := p)
  apply Classical.byContradiction
  intro hno
  have : (build p false dt (clean w)).fs n = (clean w).fs n := by
    apply build_frame
    · intro e
      cases hp : p.precomp with
      | false => rfl
      | true => exact absurd (.inl ⟨e, hp⟩) hno
    · intro u hu e; exact hno (.inr (.inl ⟨u, hU ▸ hu, e⟩))
    · intro e
      apply Classical.byContradiction
      intro hne
      exact hno (.inr (.inr ⟨e, hU ▸ hne⟩))
    · intro hp
      unfold genStep
      have : needGenerate (clean w).fs false .gen [.src p.cls] = true :=
        need_missing _ _ _ (show (if Output .gen then none else w.fs .gen) = none from if_pos trivial)
      simp only [this, if_true, write_same]; rfl
  rw [this, hnone] at h
  cases h

/-- **C88.** After any history of edits, waits and builds in which files are saved in a later second than the last build wrote, a
build leaves, for every file that a build in an empty build directory would write, a file with the same contents. -/
theorem incremental_eq_clean_partial {w₀ : World β} (h0 : Start p w₀) {es : List (Ev β)} (hc : Calm p w₀ es) (dt dt' : Name → Nat)
    {n : Name} {f : File β} (hf : (build p false dt' (clean (history p w₀ es))).fs n = some f) :
    ∃ f', (build p false dt (history p w₀ es)).fs n = some f' ∧ f'.data = f.data := by
  have hi := inv_history es h0.inv hc
  generalize hw : history p w₀ es = w at hi hf
  have hic : Inv p (clean w) := (clean_start hi).inv
  have hs := clean_same w
  obtain ⟨_, a2, a3, a4, a5⟩ := build_spec false dt hi
  obtain ⟨_, b2, b3, b4, b5⟩ := build_spec false dt' hic
  by_cases hn : Output n
  · rcases clean_outputs dt' hn hf with ⟨rfl, hp⟩ | ⟨u, hu, rfl⟩ | ⟨rfl, hne⟩
    · obtain ⟨g, g1, g2, _⟩ := a3 hp
      obtain ⟨g', g1', g2', _⟩ := b3 hp
      rw [hf] at g1'; cases g1'
      exact ⟨g, g1, by rw [g2, g2', a2.gen, b2.gen, hs.gen]⟩
    · obtain ⟨g, g1, g2, _⟩ := a4 u hu
      obtain ⟨g', g1', g2', _⟩ := b4 u (by rw [hs.units]; exact hu)
      rw [hf] at g1'; cases g1'
      exact ⟨g, g1, by rw [g2, g2', a2.obj, b2.obj, hs.obj]⟩
    · obtain ⟨g, g1, g2, _⟩ := a5 hne
      obtain ⟨g', g1', g2', _⟩ := b5 (by rw [hs.units]; exact hne)
      rw [hf] at g1'; cases g1'
      exact ⟨g, g1, by rw [g2, g2', a2.lib, b2.lib, hs.lib]⟩
  · exact ⟨f, by rw [a2 n hn, ← hs n hn, ← b2 n hn]; exact hf, rfl⟩

/-- **C88.** With `force` the same holds whatever happened before, whatever the times of the files are. -/
theorem force_eq_clean (w : World β) (dt dt' : Name → Nat) {n : Name} {f : File β}
    (hf : (build p true dt' (clean w)).fs n = some f) :
    ∃ f', (build p true dt w).fs n = some f' ∧ f'.data = f.data := by
  have hs := clean_same w
  have hU := hs.units (p := p)
  obtain ⟨a1, a2, a3, a4⟩ := force_build (p := p) dt w
  obtain ⟨b1, b2, b3, b4⟩ := force_build (p := p) dt' (clean w)
  have fin : ∀ x : β, (build p true dt w).fs.data n = some x → (build p true dt' (clean w)).fs.data n = some x →
      ∃ f', (build p true dt w).fs n = some f' ∧ f'.data = f.data := by
    intro x h1 h2
    unfold Fs.data at h1 h2
    rw [hf] at h2
    cases hb : (build p true dt w).fs n with
    | none => rw [hb] at h1; cases h1
    | some f' =>
      rw [hb] at h1
      exact ⟨f', rfl, (Option.some.inj h1).trans (Option.some.inj h2).symm⟩
  by_cases hn : Output n
  · by_cases h1 : n = .gen ∧ p.precomp = true
    · obtain ⟨rfl, hp⟩ := h1
      exact fin _ (a2 hp) (by rw [b2 hp, hs.gen])
    · by_cases h2 : ∃ u ∈ idealUnits p w.fs, n = objOf u
      · obtain ⟨u, hu, rfl⟩ := h2
        exact fin _ (a3 u hu) (by rw [b3 u (hU ▸ hu), hs.obj])
      · by_cases h3 : n = .lib ∧ idealUnits p w.fs ≠ []
        · obtain ⟨rfl, hne⟩ := h3
          exact fin _ (a4 hne) (by rw [b4 (hU ▸ hne), hs.lib])
        · exfalso
          have hnone : (clean w).fs n = none := if_pos hn
          have : (build p true dt' (clean w)).fs n = (clean w).fs n := by
            apply build_frame
            · intro e
              cases hp : p.precomp with
              | false => rfl
              | true => exact absurd ⟨e, hp⟩ h1
            · intro u hu e; exact h2 ⟨u, hU ▸ hu, e⟩
            · intro e
              apply Classical.byContradiction
              intro hne
              exact h3 ⟨e, hU ▸ hne⟩
            · intro hp
              simp only [genStep, need_force, if_true, write_same]; rfl
          rw [this, hnone] at hf
          cases hf
  · exact ⟨f, by rw [a1 n hn, ← hs n hn, ← b1 n hn]; exact hf, rfl⟩

/-- **C88.** Building changes no file that people write. -/
theorem build_keeps_sources (w : World β) (force : Bool) (dt : Name → Nat) {n : Name} (hn : ¬ Output n) :
    (build p force dt w).fs n = w.fs n := by
  obtain ⟨h1, h2⟩ := first_step (p := p) force dt w
  unfold build
  simp only
  rw [link_frame _ _ _ _ (fun (e : n = .lib) => absurd (by rw [e]; trivial) hn), compile_frame _ _ _ _ (fun u _ (e : n = objOf u) => hn (by rw [e]; exact objOf_out u))]
  exact h1 n hn

/-- **C88.** Building again, at any later time, writes nothing. -/
theorem build_again {w₀ : World β} (h0 : Start p w₀) {es : List (Ev β)} (hc : Calm p w₀ es) (dt dt' : Name → Nat) (k : Nat) :
    (history p w₀ (es ++ [.build dt, .wait k, .build dt'])).fs = (history p w₀ (es ++ [.build dt])).fs := by
  have hi := inv_history es h0.inv hc
  unfold history
  rw [List.foldl_append, List.foldl_append]
  show (build p false dt' (apply p (build p false dt (history p w₀ es)) (.wait k))).fs = (build p false dt (history p w₀ es)).fs
  generalize history p w₀ es = w at hi
  obtain ⟨a1, a2, a3, a4, a5⟩ := build_spec false dt hi
  generalize build p false dt w = v at a1 a2 a3 a4 a5
  have hv : ∀ c : Nat, (build p false dt' { v with clock := c }).fs = v.fs := by
    intro c
    have hgen : p.precomp = true → ∀ c, ∃ c', genStep p false dt' { v with clock := c } = { v with clock := c' } := by
      intro hp c
      obtain ⟨g, g1, _, g3⟩ := a3 hp
      have : ¬ needGenerate v.fs false .gen [.src p.cls] = true := by
        rw [need_iff _ _ ⟨_, List.mem_singleton_self _, a1.cls⟩]
        intro h; exact g3 (h g g1)
      unfold genStep
      simp only [this]
      exact ⟨_, rfl⟩
    have hcomp : ∀ us : List Src, (∀ u ∈ us, u ∈ idealUnits p w.fs) → ∀ c, ∃ c',
        us.foldl (compileStep p false dt') { v with clock := c } = { v with clock := c' } := by
      intro us
      induction us with
      | nil => intro _ c; exact ⟨c, rfl⟩
      | cons u us ih =>
        intro hus c
        have hu := hus u List.mem_cons_self
        obtain ⟨o, o1, _, o3⟩ := a4 u hu
        have : ¬ needGenerate v.fs false (objOf u) (p.ins u) = true := by
          rw [need_iff (is := p.ins u) _ _ ⟨p.srcOf u, List.mem_cons_self, by rw [a3.has, a2.has]; exact (List.mem_filter.1 hu).2⟩]
          intro h; exact o3 (h o o1)
        have hstep : compileStep p false dt' { v with clock := c } u = { v with clock := c + dt' (objOf u) } := by
          unfold compileStep
          simp only [this]; rfl
        rw [List.foldl_cons, hstep]
        exact ih (fun x hx => hus x (List.mem_cons_of_mem _ hx)) _
    obtain ⟨c1, h1⟩ : ∃ c1, (if p.precomp then genStep p false dt' { v with clock := c } else { v with clock := c }) =
        { v with clock := c1 } := by
      by_cases hp : p.precomp = true
      · simp only [hp, if_true]; exact hgen hp c
      · simp only [hp]; exact ⟨c, rfl⟩
    unfold build
    simp only [h1]
    have hus : p.units v.fs = idealUnits p w.fs := by rw [a3.units, a2.units]
    rw [hus]
    obtain ⟨c2, h2⟩ := hcomp (idealUnits p w.fs) (fun _ h => h) c1
    rw [h2]
    by_cases hne : idealUnits p w.fs = []
    · simp only [linkStep, hne, if_true]
    · obtain ⟨l, l1, _, l3⟩ := a5 hne
      have hex : ∃ i ∈ (idealUnits p w.fs).map objOf, (v.fs i).isSome = true := by
        cases hU : idealUnits p w.fs with
        | nil => exact absurd hU hne
        | cons u us =>
          obtain ⟨o, o1, _⟩ := a4 u (by rw [hU]; exact List.mem_cons_self)
          exact ⟨objOf u, List.mem_cons_self, by rw [o1]; rfl⟩
      have : ¬ needGenerate v.fs false .lib ((idealUnits p w.fs).map objOf) = true := by
        rw [need_iff _ _ hex]
        intro h; exact l3 (h l l1)
      simp only [linkStep, hne, if_false, this]; rfl
  exact hv _

/-- **C88.** What is not newer is not made again: an object file is written only if it is missing or one of its inputs or the version
header is newer. -/
theorem compiled_only_if_needed (w : World β) (dt : Name → Nat) (u : Src) (hu : (w.fs (p.srcOf u)).isSome = true) {o : File β}
    (ho : w.fs (objOf u) = some o) (hold : ∀ i ∈ Name.ver :: p.ins u, ∀ f, w.fs i = some f → f.mtime ≤ o.mtime) :
    (compileStep p false dt w u).fs = w.fs := by
  have : ¬ needGenerate w.fs false (objOf u) (p.ins u) = true := by
    rw [need_iff (is := p.ins u) _ _ ⟨p.srcOf u, List.mem_cons_self, hu⟩]
    intro h
    obtain ⟨i, hi, f, hf, ht⟩ := h o ho
    exact absurd (hold i hi f hf) (Nat.not_le.2 ht)
  unfold compileStep
  simp only [this]; rfl

/-! ### Names of functions and object files -/

/-- **C88.** Two methods get the same C function only if they are the same method of the same class: for class names of which no part
ends with an underscore. -/
theorem cfunc_name_unique_partial {native native' : Bool} {ps qs : List (List Char)} {m m' : List Char} (hps : ps ≠ []) (hqs : qs ≠ [])
    (h1 : ∀ x ∈ ps, Part x) (h2 : ∀ x ∈ qs, Part x) (hm : Ident m) (hm' : Ident m')
    (h : cfuncName native (className ps) m = cfuncName native' (className qs) m') : native = native' ∧ ps = qs ∧ m = m' := by
  unfold cfuncName at h
  rw [underscore_name ps m hps (fun x hx => (h1 x hx).colon) hm.colon,
    underscore_name qs m' hqs (fun x hx => (h2 x hx).colon) hm'.colon] at h
  have hcat : native = native' := by
    cases native <;> cases native' <;> first | rfl | (exfalso; simp at h)
  subst hcat
  have h := List.append_cancel_left h
  exact ⟨rfl, joined_inj ps qs m m' h1 h2 hm hm' h⟩

/-- Within one class no condition is needed. -/
theorem cfunc_name_unique_in_class {native : Bool} {c m m' : List Char} (hm : ':' ∉ m) (hm' : ':' ∉ m')
    (h : cfuncName native c m = cfuncName native c m') : m = m' := by
  unfold cfuncName at h
  have h := List.append_cancel_left h
  have happ : ∀ a b : List Char, underscore (a ++ b) = underscore a ++ underscore b := fun a b => List.map_append
  rw [happ, happ] at h
  have h := List.append_cancel_left h
  have h : '_' :: '_' :: underscore m = '_' :: '_' :: underscore m' := h
  rw [underscore_id hm, underscore_id hm'] at h
  simpa using h

/-- The method `b` of the class `A_` and the method `_b` of the class `A` have the same C function. -/
theorem cfunc_name_clash_violated : cfuncName true "A_".toList "b".toList = cfuncName true "A".toList "_b".toList := by decide +kernel

theorem objectBase_ext {b ext : List Char} (hne : ext ≠ []) (hdot : '.' ∉ ext) : objectBase (b ++ '.' :: ext) = b ++ ['.', 'o'] := by
  have hall : ∀ (l r : List Char), (∀ x ∈ l, x ≠ '.') → (l ++ '.' :: r).takeWhile (· ≠ '.') = l ∧
      (l ++ '.' :: r).dropWhile (· ≠ '.') = '.' :: r := by
    intro l
    induction l with
    | nil => intro r _; simp
    | cons c l ih =>
      intro r h
      have hc : c ≠ '.' := h c List.mem_cons_self
      obtain ⟨h1, h2⟩ := ih r (fun x hx => h x (List.mem_cons_of_mem _ hx))
      simp only [List.cons_append]
      rw [List.takeWhile_cons, List.dropWhile_cons]
      simp only [hc, ne_eq, not_false_eq_true, decide_true, if_true]
      exact ⟨by rw [h1], h2⟩
  have hrev : (b ++ '.' :: ext).reverse = ext.reverse ++ '.' :: b.reverse := by simp
  obtain ⟨h1, h2⟩ := hall ext.reverse b.reverse (fun x hx e => hdot (by rw [← e]; exact List.mem_reverse.1 hx))
  unfold objectBase
  rw [hrev]
  simp only [h1, h2]
  cases hr : ext.reverse with
  | nil => exact absurd (List.reverse_eq_nil_iff.1 hr) hne
  | cons c l => simp

/-- **C88.** Native sources with the same extension have object files of their own. -/
theorem object_file_unique_partial {b b' ext : List Char} (hne : ext ≠ []) (hdot : '.' ∉ ext)
    (h : objectBase (b ++ '.' :: ext) = objectBase (b' ++ '.' :: ext)) : b = b' := by
  rw [objectBase_ext hne hdot, objectBase_ext hne hdot] at h
  exact List.append_cancel_right h

/-- `a.c` and `a.cpp` have one object file. -/
theorem object_file_clash_violated : objectBase "a.c".toList = objectBase "a.cpp".toList := by decide +kernel

/-! ### What is not noticed -/

/-- A native class with one native source that the config names; the library is the list of the sources it is made from. -/
def nativeDemo : Proj (List Nat) where
  precomp := false
  cls := 0
  deps := []
  cfg := some 1
  csrc := 2
  hdrs := [3]
  srcs := fun c => c.getD []
  tr := fun a _ => a.getD []
  cc := fun _ s h _ => s.getD [] ++ (h.map fun x => x.getD []).flatten
  ld := fun _ os => (os.map fun x => x.getD []).flatten

/-- A precompiled class that uses a constant of another class. -/
def precompDemo : Proj (List Nat) := { nativeDemo with
  precomp := true, deps := [5], cfg := none, srcs := fun _ => [], tr := fun a ds => a.getD [] ++ (ds.map fun x => x.getD []).flatten }

/-- The files before the first build, at time 10: the class source says 20, the header 30, the native source 40, the other class 50. -/
def demoStart : World (List Nat) where
  fs := fun n => match n with
    | .src 0 => some ⟨[9], 1⟩
    | .src 1 => some ⟨[4], 1⟩
    | .src 2 => some ⟨[20], 2⟩
    | .src 3 => some ⟨[30], 3⟩
    | .src 4 => some ⟨[40], 4⟩
    | .src 5 => some ⟨[50], 5⟩
    | .ver => some ⟨[], 1⟩
    | _ => none
  clock := 10

/-- A file saved in the second in which the library was written: the next builds, at any time, keep the old library. -/
theorem same_second_violated :
    let w := history nativeDemo demoStart [.build fun _ => 0, .edit (.src 2) [21], .wait 100, .build fun _ => 0]
    w.fs.data .lib = some [20, 30, 40, 30] ∧
    (build nativeDemo false (fun _ => 0) (clean w)).fs.data .lib = some [21, 30, 40, 30] := by decide +kernel

/-- A changed constant of a used class does not reach a precompiled class, however long after. -/
theorem used_class_violated :
    let w := history precompDemo demoStart [.build fun _ => 0, .wait 100, .edit (.src 5) [51], .wait 100, .build fun _ => 0]
    w.fs.data .lib = some [9, 50, 30] ∧
    (build precompDemo false (fun _ => 0) (clean w)).fs.data .lib = some [9, 51, 30] := by decide +kernel

/-- A native source that was removed stays in the library. -/
theorem removed_source_violated :
    let w := history nativeDemo demoStart [.build fun _ => 0, .wait 100, .remove (.src 4), .wait 100, .build fun _ => 0]
    w.fs.data .lib = some [20, 30, 40, 30] ∧
    (build nativeDemo false (fun _ => 0) (clean w)).fs.data .lib = some [20, 30] := by decide +kernel

/-- A file put back with its old time is not noticed. -/
theorem old_time_violated :
    let w := history nativeDemo demoStart [.build fun _ => 0, .wait 100, .put (.src 2) [19] 2, .wait 100, .build fun _ => 0]
    w.fs.data .lib = some [20, 30, 40, 30] ∧
    (build nativeDemo false (fun _ => 0) (clean w)).fs.data .lib = some [19, 30, 40, 30] := by decide +kernel

/-! ### Examples -/

theorem demo_start (p : Proj (List Nat)) (h : p.cls = 0) : Start p demoStart where
  none_built := by intro n hn; cases n <;> first | rfl | exact hn.elim
  past := by
    intro n f hf
    unfold demoStart at hf ⊢
    simp only at hf ⊢
    split at hf <;> first | (cases hf; decide) | cases hf
  cls := by rw [h]; rfl

/-- **C88.** A second after a build is enough: files saved then are noticed by the next build. -/
theorem calm_edit_later {w₀ : World β} (h0 : Start p w₀) {es : List (Ev β)} (hc : Calm p w₀ es) {k : Nat} (hk : 0 < k) {n : Name} (d : β)
    (hn : ¬ Output n) (hd : ∀ x ∈ p.deps, n = .src x → x = p.cls) : Calm p w₀ (es ++ [.wait k, .edit n d]) := by
  have key : ∀ (es : List (Ev β)) {w : World β}, Inv p w → Calm p w es → Calm p w (es ++ [.wait k, .edit n d]) := by
    intro es
    induction es with
    | nil =>
      intro w hi _
      refine ⟨trivial, ⟨hn, hd, ?_⟩, trivial⟩
      intro m f _ hf
      exact Nat.lt_of_le_of_lt (hi.past m f hf) (Nat.lt_add_of_pos_right hk)
    | cons e es ih =>
      intro w hi hc
      exact ⟨hc.1, ih (inv_history [e] hi ⟨hc.1, trivial⟩) hc.2⟩
  exact key es h0.inv hc

/-- Build, save the header a second later: the hypotheses of `incremental_eq_clean_partial`; the next build takes the new header. -/
example : Start nativeDemo demoStart ∧ Calm nativeDemo demoStart [.build fun _ => 1, .wait 1, .edit (.src 3) [31]] ∧
    (history nativeDemo demoStart [.build fun _ => 1, .wait 1, .edit (.src 3) [31]]).fs .lib = some ⟨[20, 30, 40, 30], 13⟩ ∧
    (build nativeDemo false (fun _ => 1) (history nativeDemo demoStart [.build fun _ => 1, .wait 1, .edit (.src 3) [31]])).fs .lib =
      some ⟨[20, 31, 40, 31], 17⟩ :=
  ⟨demo_start _ rfl, calm_edit_later (demo_start _ rfl) (es := [.build fun _ => 1]) ⟨trivial, trivial⟩ Nat.zero_lt_one [31] id
    (fun _ h => by cases h), by decide +kernel, by decide +kernel⟩

/-- The same for a precompiled class and its class file. -/
example : Start precompDemo demoStart ∧ Calm precompDemo demoStart [.build fun _ => 1, .wait 1, .edit (.src 0) [8]] ∧
    (build precompDemo false (fun _ => 1) (history precompDemo demoStart [.build fun _ => 1, .wait 1, .edit (.src 0) [8]])).fs.data .lib =
      some [8, 50, 30] :=
  ⟨demo_start _ rfl, calm_edit_later (demo_start _ rfl) (es := [.build fun _ => 1]) ⟨trivial, trivial⟩ Nat.zero_lt_one [8] id
    (fun x h e => by rw [List.mem_singleton.1 h] at e; cases e), by decide +kernel⟩

/-- Names that meet the hypotheses of `cfunc_name_unique_partial`. -/
example : Part "Point".toList ∧ Part "D3".toList ∧ Ident "_get_x".toList ∧
    cfuncName true (className ["Point".toList, "D3".toList]) "_get_x".toList = "SPVM__Point__D3___get_x".toList := by
  refine ⟨⟨⟨by decide, by decide, ?_⟩, by decide⟩, ⟨⟨by decide, by decide, ?_⟩, by decide⟩, ⟨by decide, by decide, ?_⟩, by decide +kernel⟩
  all_goals simp [NoDouble]

/-- When an output is made: always when forced; when it is missing; and otherwise exactly when some input exists and an input or the version
header is newer than it. -/
theorem need_generate_iff (fs : Fs β) (force : Bool) (out : Name) (is : List Name) :
    needGenerate fs force out is = true ↔
      force = true ∨ fs out = none ∨
      ∃ o, fs out = some o ∧ (∃ i ∈ is, (fs i).isSome = true) ∧ ∃ i ∈ Name.ver :: is, ∃ f, fs i = some f ∧ o.mtime < f.mtime := by
  cases force with
  | true => simp [need_force]
  | false =>
    by_cases hex : ∃ i ∈ is, (fs i).isSome = true
    · rw [need_iff fs out hex]
      unfold Newer
      cases ho : fs out with
      | none => simp
      | some o => simp only [Option.some.injEq, forall_eq', Bool.false_eq_true, false_or, reduceCtorEq, exists_eq_left', hex, true_and]
    · cases ho : fs out with
      | none => simp [needGenerate, ho]
      | some o =>
        have h1 : (scan fs is 0 false).2 = false := by
          cases h : (scan fs is 0 false).2 with
          | false => rfl
          | true => exact absurd (((scan_spec fs is 0 false).1.1 h).resolve_left (by decide)) hex
        constructor
        · intro h
          simp [needGenerate, ho, h1] at h
        · rintro (h | h | ⟨_, _, h, _⟩)
          · cases h
          · cases h
          · exact absurd h hex

end SPVM.Build
