import Verif.Spec.Build

namespace SPVM.Build

variable {p : Proj β}

@[simp] theorem write_same (fs : Fs β) (n : Name) (f : Option (File β)) : fs.write n f n = f := by simp [Fs.write]

theorem write_other (fs : Fs β) {n m : Name} (f : Option (File β)) (h : m ≠ n) : fs.write n f m = fs m := by simp [Fs.write, h]

/-! ### `need_generate` -/

theorem scan_spec (fs : Fs β) : ∀ (is : List Name) (mx : Nat) (any : Bool),
    ((scan fs is mx any).2 = true ↔ any = true ∨ ∃ i ∈ is, (fs i).isSome = true) ∧
    ∀ t, (t < (scan fs is mx any).1 ↔ t < mx ∨ ∃ i ∈ is, ∃ f, fs i = some f ∧ t < f.mtime) := by
  intro is
  induction is with
  | nil => intro mx any; simp [scan]
  | cons i is ih =>
    intro mx any
    cases h : fs i with
    | none =>
      simp only [scan, h]
      obtain ⟨h1, h2⟩ := ih mx any
      refine ⟨?_, fun t => ?_⟩
      · rw [h1]; simp [h]
      · rw [h2]; simp [h]
    | some f =>
      simp only [scan, h]
      obtain ⟨h1, h2⟩ := ih (if f.mtime > mx then f.mtime else mx) true
      refine ⟨?_, fun t => ?_⟩
      · rw [h1]; simp [h]
      · rw [h2]
        have : (t < if f.mtime > mx then f.mtime else mx) ↔ t < mx ∨ t < f.mtime := by
          split <;> omega
        rw [this]
        simp only [List.mem_cons, exists_eq_or_imp, h, Option.some.injEq, exists_eq_left', or_assoc]

/-- An input (or the version header) is newer than `t`. -/
def Newer (fs : Fs β) (is : List Name) (t : Nat) : Prop := ∃ i ∈ Name.ver :: is, ∃ f, fs i = some f ∧ t < f.mtime

theorem need_iff (fs : Fs β) (out : Name) {is : List Name} (hex : ∃ i ∈ is, (fs i).isSome = true) :
    needGenerate fs false out is = true ↔ ∀ o, fs out = some o → Newer fs is o.mtime := by
  unfold needGenerate
  simp only [Bool.false_eq_true, if_false]
  cases ho : fs out with
  | none => simp
  | some o =>
    obtain ⟨h1, h2⟩ := scan_spec fs is 0 false
    have h1 : (scan fs is 0 false).2 = true := h1.2 (.inr hex)
    simp only [h1, if_true, decide_eq_true_eq, Option.some.injEq, forall_eq', gt_iff_lt]
    have h2 := h2 o.mtime
    simp only [Nat.not_lt_zero, false_or] at h2
    unfold Newer
    simp only [List.mem_cons, exists_eq_or_imp]
    rw [← h2]
    cases hv : fs .ver with
    | none => simp
    | some v =>
      simp only [Option.some.injEq, exists_eq_left']
      split <;> omega

theorem need_force (fs : Fs β) (out : Name) (is : List Name) : needGenerate fs true out is = true := rfl

/-! ### What a build should make -/

def idealGen (p : Proj β) (fs : Fs β) : β := p.tr (fs.data (.src p.cls)) (p.deps.map fun d => fs.data (.src d))

def idealSrc (p : Proj β) (fs : Fs β) : Src → Option β
  | .cls => if p.precomp then some (idealGen p fs) else fs.data (.src p.csrc)
  | .nat n => fs.data (.src n)

def idealObj (p : Proj β) (fs : Fs β) (u : Src) : β :=
  p.cc (fs.data .ver) (idealSrc p fs u) (p.hdrs.map fun h => fs.data (.src h)) (p.cfgData fs)

def idealHas (p : Proj β) (fs : Fs β) : Src → Bool
  | .cls => if p.precomp then true else (fs (.src p.csrc)).isSome
  | .nat n => (fs (.src n)).isSome

def idealUnits (p : Proj β) (fs : Fs β) : List Src :=
  (.cls :: (p.srcs (p.cfgData fs)).map .nat).filter (idealHas p fs)

def idealLib (p : Proj β) (fs : Fs β) : β := p.ld (p.cfgData fs) ((idealUnits p fs).map fun u => some (idealObj p fs u))

/-- The files people write that a source depends on. -/
def ownSrc (p : Proj β) : Src → List Name
  | .cls => if p.precomp then [] else [.src p.csrc]
  | .nat n => [.src n]

def srcIns (p : Proj β) (u : Src) : List Name := ownSrc p u ++ .src p.cls :: (p.hdrs.map .src ++ p.cfg.toList.map .src)

/-- Same sources. -/
def SameSrc (fs fs' : Fs β) : Prop := ∀ n, ¬ Output n → fs' n = fs n

theorem SameSrc.refl (fs : Fs β) : SameSrc fs fs := fun _ _ => rfl
theorem SameSrc.trans {a b c : Fs β} (h1 : SameSrc a b) (h2 : SameSrc b c) : SameSrc a c :=
  fun n hn => (h2 n hn).trans (h1 n hn)

theorem SameSrc.data {fs fs' : Fs β} (h : SameSrc fs fs') {n : Name} (hn : ¬ Output n) : fs'.data n = fs.data n := by
  unfold Fs.data; rw [h n hn]

theorem SameSrc.cfg {fs fs' : Fs β} (h : SameSrc fs fs') : p.cfgData fs' = p.cfgData fs := by
  unfold Proj.cfgData
  cases p.cfg with
  | none => rfl
  | some c => exact h.data (n := .src c) id

theorem SameSrc.gen {fs fs' : Fs β} (h : SameSrc fs fs') : idealGen p fs' = idealGen p fs := by
  unfold idealGen
  rw [h.data (n := .src p.cls) id]
  congr 1
  exact List.map_congr_left fun d _ => h.data (n := .src d) id

theorem SameSrc.src {fs fs' : Fs β} (h : SameSrc fs fs') (u : Src) : idealSrc p fs' u = idealSrc p fs u := by
  cases u with
  | cls => simp only [idealSrc, h.gen]; rw [h.data (n := .src p.csrc) id]
  | nat n => exact h.data (n := .src n) id

theorem SameSrc.obj {fs fs' : Fs β} (h : SameSrc fs fs') (u : Src) : idealObj p fs' u = idealObj p fs u := by
  unfold idealObj
  rw [h.src, h.cfg, h.data (n := .ver) id]
  congr 1
  exact List.map_congr_left fun d _ => h.data (n := .src d) id

theorem SameSrc.has {fs fs' : Fs β} (h : SameSrc fs fs') : idealHas p fs' = idealHas p fs := by
  funext u
  cases u with
  | cls => simp only [idealHas]; rw [h (.src p.csrc) id]
  | nat n => simp only [idealHas]; rw [h (.src n) id]

theorem SameSrc.units {fs fs' : Fs β} (h : SameSrc fs fs') : idealUnits p fs' = idealUnits p fs := by
  unfold idealUnits; rw [h.has, h.cfg]

theorem SameSrc.lib {fs fs' : Fs β} (h : SameSrc fs fs') : idealLib p fs' = idealLib p fs := by
  unfold idealLib
  rw [h.units, h.cfg]
  congr 1
  exact List.map_congr_left fun u _ => by rw [h.obj]

theorem srcIns_notOut {u : Src} {n : Name} (h : n ∈ Name.ver :: srcIns p u) : ¬ Output n := by
  have hs : ∀ k, ¬ Output (.src k) := fun _ => id
  rcases List.mem_cons.1 h with h | h
  · subst h; exact id
  · unfold srcIns at h
    rcases List.mem_append.1 h with h | h
    · cases u with
      | cls =>
        by_cases hp : p.precomp = true
        · simp [ownSrc, hp] at h
        · simp only [ownSrc, hp] at h
          rw [List.mem_singleton.1 h]; exact hs _
      | nat k => rw [List.mem_singleton.1 h]; exact hs _
    · rcases List.mem_cons.1 h with h | h
      · subst h; exact hs _
      · rcases List.mem_append.1 h with h | h
        · obtain ⟨_, _, rfl⟩ := List.mem_map.1 h; exact hs _
        · obtain ⟨_, _, rfl⟩ := List.mem_map.1 h; exact hs _

theorem SameSrc.newer {fs fs' : Fs β} (h : SameSrc fs fs') {u : Src} {t : Nat} :
    Newer fs' (srcIns p u) t ↔ Newer fs (srcIns p u) t := by
  unfold Newer
  constructor
  · rintro ⟨i, hi, f, hf, ht⟩
    exact ⟨i, hi, f, by rw [← h i (srcIns_notOut hi)]; exact hf, ht⟩
  · rintro ⟨i, hi, f, hf, ht⟩
    exact ⟨i, hi, f, by rw [h i (srcIns_notOut hi)]; exact hf, ht⟩

/-! ### The invariant -/

structure Inv (p : Proj β) (w : World β) : Prop where
  past : ∀ n f, w.fs n = some f → f.mtime ≤ w.clock
  cls : (w.fs (.src p.cls)).isSome = true
  gen : ∀ g, w.fs .gen = some g → g.data = idealGen p w.fs ∨ Newer w.fs [.src p.cls] g.mtime
  obj : ∀ u o, w.fs (objOf u) = some o → o.data = idealObj p w.fs u ∨ Newer w.fs (srcIns p u) o.mtime
  lib : ∀ l, w.fs .lib = some l → idealUnits p w.fs = [] ∨ l.data = idealLib p w.fs ∨
    ∃ u ∈ idealUnits p w.fs, Newer w.fs (srcIns p u) l.mtime

theorem Start.inv {w : World β} (h : Start p w) : Inv p w where
  past := h.past
  cls := h.cls
  gen := fun g hg => by rw [h.none_built .gen trivial] at hg; cases hg
  obj := fun u o ho => by
    rw [h.none_built (objOf u) (by cases u <;> trivial)] at ho; cases ho
  lib := fun l hl => by rw [h.none_built .lib trivial] at hl; cases hl

theorem objOf_out (u : Src) : Output (objOf u) := by cases u <;> trivial
theorem objOf_inj {u v : Src} (h : objOf u = objOf v) : u = v := by
  cases u <;> cases v <;> simp_all [objOf]
theorem objOf_ne_gen (u : Src) : objOf u ≠ .gen := by cases u <;> exact Name.noConfusion
theorem objOf_ne_lib (u : Src) : objOf u ≠ .lib := by cases u <;> exact Name.noConfusion

theorem same_write {fs : Fs β} {n : Name} (hn : Output n) (f : Option (File β)) : SameSrc fs (fs.write n f) := by
  intro m hm
  exact write_other _ _ (fun e => hm (by rw [e]; exact hn))

/-- Writing the right contents to an output keeps the invariant. -/
theorem inv_write {w : World β} (hi : Inv p w) {n : Name} (hn : Output n) {d : β} {now : Nat} (hnow : w.clock ≤ now)
    (hgen : n = .gen → d = idealGen p w.fs) (hobj : ∀ u, n = objOf u → d = idealObj p w.fs u)
    (hlib : n = .lib → d = idealLib p w.fs) : Inv p { fs := w.fs.write n (some ⟨d, now⟩), clock := now } := by
  have hs : SameSrc w.fs (w.fs.write n (some ⟨d, now⟩)) := same_write hn _
  refine ⟨?_, ?_, ?_, ?_, ?_⟩
  · intro m f hf
    by_cases hm : m = n
    · subst hm; simp only [write_same] at hf; cases hf; exact Nat.le_refl _
    · have hf : w.fs.write n (some ⟨d, now⟩) m = some f := hf
      rw [write_other _ _ hm] at hf
      exact Nat.le_trans (hi.past m f hf) hnow
  · show ((w.fs.write n (some ⟨d, now⟩)) (.src p.cls)).isSome = true
    rw [hs (.src p.cls) id]; exact hi.cls
  · intro g hg
    have hg : w.fs.write n (some ⟨d, now⟩) .gen = some g := hg
    show g.data = idealGen p (w.fs.write n _) ∨ Newer (w.fs.write n _) _ _
    rw [hs.gen]
    by_cases hm : Name.gen = n
    · subst hm; simp only [write_same] at hg; cases hg; exact .inl (hgen rfl)
    · rw [write_other _ _ hm] at hg
      rcases hi.gen g hg with h | ⟨i, hi1, f, hf, ht⟩
      · exact .inl h
      · refine .inr ⟨i, hi1, f, ?_, ht⟩
        have : ¬ Output i := by
          rcases List.mem_cons.1 hi1 with h | h
          · subst h; exact id
          · rw [List.mem_singleton.1 h]; exact id
        rw [hs i this]; exact hf
  · intro u o ho
    have ho : w.fs.write n (some ⟨d, now⟩) (objOf u) = some o := ho
    show o.data = idealObj p (w.fs.write n _) u ∨ Newer (w.fs.write n _) _ _
    rw [hs.obj, hs.newer]
    by_cases hm : objOf u = n
    · subst hm; simp only [write_same] at ho; cases ho; exact .inl (hobj u rfl)
    · rw [write_other _ _ hm] at ho
      exact hi.obj u o ho
  · intro l hl
    have hl : w.fs.write n (some ⟨d, now⟩) .lib = some l := hl
    show idealUnits p (w.fs.write n _) = [] ∨ l.data = idealLib p (w.fs.write n _) ∨
      ∃ u ∈ idealUnits p (w.fs.write n _), Newer (w.fs.write n _) _ _
    rw [hs.units, hs.lib]
    by_cases hm : Name.lib = n
    · subst hm; simp only [write_same] at hl; cases hl; exact .inr (.inl (hlib rfl))
    · rw [write_other _ _ hm] at hl
      rcases hi.lib l hl with h | h | ⟨u, hu, h⟩
      · exact .inl h
      · exact .inr (.inl h)
      · exact .inr (.inr ⟨u, hu, hs.newer.2 h⟩)

theorem inv_wait {w : World β} (hi : Inv p w) {now : Nat} (h : w.clock ≤ now) : Inv p { w with clock := now } where
  past := fun n f hf => Nat.le_trans (hi.past n f hf) h
  cls := hi.cls
  gen := hi.gen
  obj := hi.obj
  lib := hi.lib

/-! ### The steps of a build -/

theorem gen_step (force : Bool) (dt : Name → Nat) {w : World β} (hi : Inv p w) :
    let w' := genStep p force dt w
    Inv p w' ∧ SameSrc w.fs w'.fs ∧ w.clock ≤ w'.clock ∧
    ∃ g, w'.fs .gen = some g ∧ g.data = idealGen p w.fs ∧ ¬ Newer w'.fs [.src p.cls] g.mtime := by
  have hex : ∃ i ∈ [Name.src p.cls], (w.fs i).isSome = true := ⟨_, List.mem_singleton_self _, hi.cls⟩
  have hle : w.clock ≤ w.clock + dt .gen := Nat.le_add_right _ _
  unfold genStep
  by_cases hn : needGenerate w.fs force .gen [.src p.cls] = true
  · simp only [hn, if_true]
    have h1 := inv_write hi (n := .gen) trivial (d := idealGen p w.fs) hle (fun _ => rfl)
      (fun u h => absurd h.symm (objOf_ne_gen u)) (fun h => Name.noConfusion h)
    refine ⟨h1, same_write (n := .gen) trivial _, hle, _, write_same _ _ _, rfl, ?_⟩
    rintro ⟨i, _, f, hf, ht⟩
    exact absurd (h1.past i f hf) (Nat.not_le.2 ht)
  · simp only [hn]
    refine ⟨inv_wait hi hle, SameSrc.refl _, hle, ?_⟩
    have hf : force = false := by cases force with
      | false => rfl
      | true => exact absurd (need_force _ _ _) hn
    subst hf
    rw [need_iff _ _ hex] at hn
    cases hg : w.fs .gen with
    | none => exact absurd (fun o ho => by rw [hg] at ho; cases ho) hn
    | some g =>
      have hnn : ¬ Newer w.fs [.src p.cls] g.mtime := by
        intro h; apply hn; intro o ho; rw [hg] at ho; cases ho; exact h
      exact ⟨g, hg, (hi.gen g hg).resolve_right hnn, hnn⟩

/-- The generated source, if one is used, is up to date. -/
def GenOk (p : Proj β) (fs : Fs β) : Prop := p.precomp = true → ∃ g, fs .gen = some g ∧ g.data = idealGen p fs ∧
  ¬ Newer fs [.src p.cls] g.mtime

theorem GenOk.src {fs : Fs β} (h : GenOk p fs) (u : Src) : fs.data (p.srcOf u) = idealSrc p fs u := by
  cases u with
  | nat n => rfl
  | cls =>
    unfold Proj.srcOf idealSrc
    by_cases hp : p.precomp = true
    · obtain ⟨g, hg, hd, _⟩ := h hp
      simp only [hp, if_true]
      unfold Fs.data; rw [hg, ← hd]; rfl
    · simp only [hp]; rfl

theorem GenOk.has {fs : Fs β} (h : GenOk p fs) (u : Src) : (fs (p.srcOf u)).isSome = idealHas p fs u := by
  cases u with
  | nat n => rfl
  | cls =>
    unfold Proj.srcOf idealHas
    by_cases hp : p.precomp = true
    · obtain ⟨g, hg, _⟩ := h hp
      simp only [hp, if_true]; rw [hg]; rfl
    · simp only [hp]; rfl

theorem GenOk.units {fs : Fs β} (h : GenOk p fs) : p.units fs = idealUnits p fs := by
  unfold Proj.units idealUnits
  congr 1
  funext u
  exact h.has u

theorem GenOk.mono {fs fs' : Fs β} (h : GenOk p fs) (hs : SameSrc fs fs') (hg : fs' .gen = fs .gen) : GenOk p fs' := by
  intro hp
  obtain ⟨g, h1, h2, h3⟩ := h hp
  refine ⟨g, by rw [hg]; exact h1, by rw [hs.gen]; exact h2, ?_⟩
  rintro ⟨i, hi, f, hf, ht⟩
  refine h3 ⟨i, hi, f, ?_, ht⟩
  have : ¬ Output i := by
    rcases List.mem_cons.1 hi with h | h
    · subst h; exact id
    · rw [List.mem_singleton.1 h]; exact id
  rw [← hs i this]; exact hf

/-- The object file of `u` is up to date. -/
def ObjOk (p : Proj β) (fs : Fs β) (u : Src) : Prop := ∃ o, fs (objOf u) = some o ∧ o.data = idealObj p fs u ∧
  ¬ Newer fs (p.ins u) o.mtime

theorem srcIns_sub {u : Src} {i : Name} (h : i ∈ srcIns p u) : i ∈ p.ins u := by
  unfold srcIns at h
  unfold Proj.ins
  rcases List.mem_append.1 h with h | h
  · refine List.mem_cons.2 (.inl ?_)
    cases u with
    | nat n => exact List.mem_singleton.1 h
    | cls =>
      by_cases hp : p.precomp = true
      · simp [ownSrc, hp] at h
      · simp only [ownSrc, hp] at h
        simp only [Proj.srcOf, hp]
        exact List.mem_singleton.1 h
  · exact List.mem_cons.2 (.inr h)

theorem newer_sub {fs : Fs β} {u : Src} {t : Nat} (h : Newer fs (srcIns p u) t) : Newer fs (p.ins u) t := by
  obtain ⟨i, hi, r⟩ := h
  refine ⟨i, ?_, r⟩
  rcases List.mem_cons.1 hi with h | h
  · exact List.mem_cons.2 (.inl h)
  · exact List.mem_cons.2 (.inr (srcIns_sub h))

theorem ins_ne {u : Src} {i : Name} (h : i ∈ Name.ver :: p.ins u) : i = .gen ∨ ¬ Output i := by
  rcases List.mem_cons.1 h with h | h
  · subst h; exact .inr id
  · unfold Proj.ins at h
    rcases List.mem_cons.1 h with h | h
    · cases u with
      | nat n => subst h; exact .inr id
      | cls =>
        by_cases hp : p.precomp = true
        · simp only [Proj.srcOf, hp, if_true] at h; exact .inl h
        · simp only [Proj.srcOf, hp] at h; subst h; exact .inr id
    · right
      rcases List.mem_cons.1 h with h | h
      · subst h; exact id
      · rcases List.mem_append.1 h with h | h
        · obtain ⟨_, _, rfl⟩ := List.mem_map.1 h; exact id
        · obtain ⟨_, _, rfl⟩ := List.mem_map.1 h; exact id

theorem ObjOk.mono {fs fs' : Fs β} {u : Src} (h : ObjOk p fs u) (hs : SameSrc fs fs') (hg : fs' .gen = fs .gen)
    (ho : fs' (objOf u) = fs (objOf u)) : ObjOk p fs' u := by
  obtain ⟨o, h1, h2, h3⟩ := h
  refine ⟨o, by rw [ho]; exact h1, by rw [hs.obj]; exact h2, ?_⟩
  rintro ⟨i, hi, f, hf, ht⟩
  refine h3 ⟨i, hi, f, ?_, ht⟩
  rcases ins_ne hi with h | h
  · subst h; rw [← hg]; exact hf
  · rw [← hs i h]; exact hf

theorem compile_step (force : Bool) (dt : Name → Nat) {w : World β} (hi : Inv p w) (hg : GenOk p w.fs) {u : Src}
    (hu : idealHas p w.fs u = true) :
    let w' := compileStep p force dt w u
    Inv p w' ∧ SameSrc w.fs w'.fs ∧ w'.fs .gen = w.fs .gen ∧ w'.fs .lib = w.fs .lib ∧ ObjOk p w'.fs u ∧
    (∀ v, v ≠ u → w'.fs (objOf v) = w.fs (objOf v)) := by
  have hex : ∃ i ∈ p.ins u, (w.fs i).isSome = true := ⟨_, List.mem_cons_self, by rw [hg.has]; exact hu⟩
  have hle : w.clock ≤ w.clock + dt (objOf u) := Nat.le_add_right _ _
  unfold compileStep
  by_cases hn : needGenerate w.fs force (objOf u) (p.ins u) = true
  · simp only [hn, if_true]
    rw [hg.src u]
    have h1 := inv_write hi (n := objOf u) (objOf_out u) (d := idealObj p w.fs u) hle (fun h => absurd h (objOf_ne_gen u))
      (fun v h => by rw [objOf_inj h]) (fun h => absurd h (objOf_ne_lib u))
    have hs : SameSrc w.fs (w.fs.write (objOf u) (some ⟨idealObj p w.fs u, w.clock + dt (objOf u)⟩)) := same_write (objOf_out u) _
    refine ⟨h1, hs, write_other _ _ (objOf_ne_gen u).symm, write_other _ _ (objOf_ne_lib u).symm, ?_,
      fun v hv => write_other _ _ (fun e => hv (objOf_inj e))⟩
    refine ⟨_, write_same _ _ _, (hs.obj u).symm, ?_⟩
    rintro ⟨i, _, f, hf, ht⟩
    exact absurd (h1.past i f hf) (Nat.not_le.2 ht)
  · simp only [hn]
    refine ⟨inv_wait hi hle, SameSrc.refl _, rfl, rfl, ?_, fun _ _ => rfl⟩
    have hf : force = false := by cases force with
      | false => rfl
      | true => exact absurd (need_force _ _ _) hn
    subst hf
    rw [need_iff _ _ hex] at hn
    cases ho : w.fs (objOf u) with
    | none => exact absurd (fun o h => by rw [ho] at h; cases h) hn
    | some o =>
      have hnn : ¬ Newer w.fs (p.ins u) o.mtime := by
        intro h; apply hn; intro o' h'; rw [ho] at h'; cases h'; exact h
      exact ⟨o, ho, (hi.obj u o ho).resolve_right (fun h => hnn (newer_sub h)), hnn⟩

theorem compile_all (force : Bool) (dt : Name → Nat) : ∀ (us : List Src) {w : World β}, Inv p w → GenOk p w.fs →
    (∀ u ∈ us, idealHas p w.fs u = true) →
    let w' := us.foldl (compileStep p force dt) w
    Inv p w' ∧ SameSrc w.fs w'.fs ∧ w'.fs .gen = w.fs .gen ∧ w'.fs .lib = w.fs .lib ∧
    ∀ u, (u ∈ us ∨ ObjOk p w.fs u) → ObjOk p w'.fs u := by
  intro us
  induction us with
  | nil => intro w hi hg _; exact ⟨hi, SameSrc.refl _, rfl, rfl, fun u h => h.resolve_left (fun h => by cases h)⟩
  | cons v us ih =>
    intro w hi hg hu
    obtain ⟨h1, h2, h3, h4, h5, h6⟩ := compile_step force dt hi hg (hu v List.mem_cons_self)
    obtain ⟨k1, k2, k3, k4, k5⟩ := ih h1 (hg.mono h2 h3) (fun u h => by rw [h2.has]; exact hu u (List.mem_cons_of_mem _ h))
    refine ⟨k1, h2.trans k2, k3.trans h3, k4.trans h4, ?_⟩
    intro u h
    apply k5
    by_cases huv : u = v
    · subst huv; exact .inr h5
    · rcases h with h | h
      · rcases List.mem_cons.1 h with h | h
        · exact absurd h huv
        · exact .inl h
      · exact .inr (h.mono h2 h3 (h6 u huv))

/-- The library is up to date. -/
def LibOk (p : Proj β) (fs : Fs β) (us : List Src) : Prop := ∃ l, fs .lib = some l ∧ l.data = idealLib p fs ∧
  ¬ Newer fs (us.map objOf) l.mtime

theorem link_step (force : Bool) (dt : Name → Nat) {w : World β} (hi : Inv p w) {us : List Src} (hus : us = idealUnits p w.fs)
    (hne : us ≠ []) (hok : ∀ u ∈ us, ObjOk p w.fs u) :
    let w' := linkStep p force dt us w
    Inv p w' ∧ SameSrc w.fs w'.fs ∧ (∀ n, n ≠ .lib → w'.fs n = w.fs n) ∧ LibOk p w'.fs us := by
  have hle : w.clock ≤ w.clock + dt .lib := Nat.le_add_right _ _
  have hdata : (us.map fun u => w.fs.data (objOf u)) = us.map fun u => some (idealObj p w.fs u) := by
    apply List.map_congr_left
    intro u hu
    obtain ⟨o, h1, h2, _⟩ := hok u hu
    unfold Fs.data; rw [h1, ← h2]; rfl
  have hex : ∃ i ∈ us.map objOf, (w.fs i).isSome = true := by
    cases us with
    | nil => exact absurd rfl hne
    | cons u us =>
      obtain ⟨o, h1, _⟩ := hok u List.mem_cons_self
      exact ⟨objOf u, List.mem_cons_self, by rw [h1]; rfl⟩
  unfold linkStep
  simp only [hne, if_false]
  by_cases hn : needGenerate w.fs force .lib (us.map objOf) = true
  · simp only [hn, if_true]
    rw [hdata]
    have hd : p.ld (p.cfgData w.fs) (us.map fun u => some (idealObj p w.fs u)) = idealLib p w.fs := by
      unfold idealLib; rw [hus]
    rw [hd]
    have h1 := inv_write hi (n := .lib) trivial (d := idealLib p w.fs) hle (fun h => Name.noConfusion h)
      (fun v h => absurd h.symm (objOf_ne_lib v)) (fun _ => rfl)
    have hs : SameSrc w.fs (w.fs.write .lib (some ⟨idealLib p w.fs, w.clock + dt .lib⟩)) := same_write (n := .lib) trivial _
    refine ⟨h1, hs, fun n h => write_other _ _ h, _, write_same _ _ _, hs.lib.symm, ?_⟩
    rintro ⟨i, _, f, hf, ht⟩
    exact absurd (h1.past i f hf) (Nat.not_le.2 ht)
  · simp only [hn]
    refine ⟨inv_wait hi hle, SameSrc.refl _, fun _ _ => rfl, ?_⟩
    have hf : force = false := by cases force with
      | false => rfl
      | true => exact absurd (need_force _ _ _) hn
    subst hf
    rw [need_iff _ _ hex] at hn
    cases hl : w.fs .lib with
    | none => exact absurd (fun o h => by rw [hl] at h; cases h) hn
    | some l =>
      have hnn : ¬ Newer w.fs (us.map objOf) l.mtime := by
        intro h; apply hn; intro o' h'; rw [hl] at h'; cases h'; exact h
      refine ⟨l, hl, ?_, hnn⟩
      rcases hi.lib l hl with h | h | ⟨u, hu, i, hi1, f, hf, ht⟩
      · exact absurd (hus.trans h) hne
      · exact h
      · exfalso
        rw [← hus] at hu
        obtain ⟨o, h1, _, h3⟩ := hok u hu
        have hio : f.mtime ≤ o.mtime := by
          rcases Nat.lt_or_ge o.mtime f.mtime with h | h
          · exact absurd (newer_sub ⟨i, hi1, f, hf, h⟩) h3
          · exact h
        exact hnn ⟨objOf u, List.mem_cons_of_mem _ (List.mem_map.2 ⟨u, hu, rfl⟩), o, h1, Nat.lt_of_lt_of_le ht hio⟩

/-- What a build achieves. -/
theorem build_spec (force : Bool) (dt : Name → Nat) {w : World β} (hi : Inv p w) :
    let w' := build p force dt w
    Inv p w' ∧ SameSrc w.fs w'.fs ∧ GenOk p w'.fs ∧ (∀ u ∈ idealUnits p w.fs, ObjOk p w'.fs u) ∧
    (idealUnits p w.fs ≠ [] → LibOk p w'.fs (idealUnits p w.fs)) := by
  obtain ⟨w1, hw1, hi1, hs1, hg1⟩ : ∃ w1, (if p.precomp then genStep p force dt w else w) = w1 ∧ Inv p w1 ∧ SameSrc w.fs w1.fs ∧
      GenOk p w1.fs := by
    by_cases hp : p.precomp = true
    · simp only [hp, if_true]
      obtain ⟨a, b, _, g, h1, h2, h3⟩ := gen_step force dt hi
      exact ⟨_, rfl, a, b, fun _ => ⟨g, h1, by rw [b.gen]; exact h2, h3⟩⟩
    · simp only [hp]
      exact ⟨_, rfl, hi, SameSrc.refl _, fun h => absurd h hp⟩
  unfold build
  simp only [hw1]
  rw [hg1.units]
  have hus : idealUnits p w1.fs = idealUnits p w.fs := hs1.units
  obtain ⟨k1, k2, k3, k4, k5⟩ := compile_all force dt (idealUnits p w1.fs) hi1 hg1 (fun u hu => (List.mem_filter.1 hu).2)
  by_cases hne : idealUnits p w1.fs = []
  · rw [hne] at k1 k2 k3 k5 ⊢
    simp only [linkStep, if_true]
    refine ⟨k1, hs1.trans k2, hg1.mono k2 k3, ?_, ?_⟩
    · intro u hu; rw [← hus, hne] at hu; cases hu
    · intro h; exact absurd (hus ▸ hne) h
  · obtain ⟨l1, l2, l3, l4⟩ := link_step force dt k1 (us := idealUnits p w1.fs) k2.units.symm hne (fun u hu => k5 u (.inl hu))
    refine ⟨l1, (hs1.trans k2).trans l2, (hg1.mono k2 k3).mono l2 (l3 _ Name.noConfusion), ?_, ?_⟩
    · intro u hu
      exact (k5 u (.inl (hus ▸ hu))).mono l2 (l3 _ Name.noConfusion) (l3 _ (objOf_ne_lib u))
    · intro _; rw [← hus]; exact l4

/-! ### Files a build leaves alone -/

theorem gen_frame (force : Bool) (dt : Name → Nat) (w : World β) {n : Name} (h : n ≠ .gen) :
    (genStep p force dt w).fs n = w.fs n := by
  unfold genStep
  by_cases hn : needGenerate w.fs force .gen [.src p.cls] = true
  · simp only [hn, if_true]; exact write_other _ _ h
  · simp only [hn]; rfl

theorem compile_frame (force : Bool) (dt : Name → Nat) {n : Name} : ∀ (us : List Src) (w : World β), (∀ u ∈ us, n ≠ objOf u) →
    (us.foldl (compileStep p force dt) w).fs n = w.fs n := by
  intro us
  induction us with
  | nil => intro w _; rfl
  | cons u us ih =>
    intro w h
    rw [List.foldl_cons, ih _ (fun v hv => h v (List.mem_cons_of_mem _ hv))]
    unfold compileStep
    by_cases hn : needGenerate w.fs force (objOf u) (p.ins u) = true
    · simp only [hn, if_true]; exact write_other _ _ (h u List.mem_cons_self)
    · simp only [hn]; rfl

theorem link_frame (force : Bool) (dt : Name → Nat) (us : List Src) (w : World β) {n : Name} (h : n = .lib → us = []) :
    (linkStep p force dt us w).fs n = w.fs n := by
  unfold linkStep
  by_cases hu : us = []
  · simp only [hu, if_true]
  · simp only [hu, if_false]
    by_cases hn : needGenerate w.fs force .lib (us.map objOf) = true
    · simp only [hn, if_true]; exact write_other _ _ (fun e => hu (h e))
    · simp only [hn]; rfl

/-- The source files and `gen` before the compilations. -/
theorem first_step (force : Bool) (dt : Name → Nat) (w : World β) :
    let w1 := if p.precomp then genStep p force dt w else w
    SameSrc w.fs w1.fs ∧ ∀ n, (n = .gen → p.precomp = false) → w1.fs n = w.fs n := by
  by_cases hp : p.precomp = true
  · simp only [hp, if_true]
    refine ⟨fun n hn => gen_frame _ _ _ (fun e => hn (by rw [e]; trivial)), fun n hn => gen_frame _ _ _ (fun e => ?_)⟩
    cases hn e
  · simp only [hp]
    exact ⟨SameSrc.refl _, fun _ _ => rfl⟩

theorem build_frame (force : Bool) (dt : Name → Nat) {w : World β} {n : Name} (hg : n = .gen → p.precomp = false)
    (ho : ∀ u ∈ idealUnits p w.fs, n ≠ objOf u)
    (hl : n = .lib → idealUnits p w.fs = []) (hgen : p.precomp = true → ((genStep p force dt w).fs .gen).isSome = true) :
    (build p force dt w).fs n = w.fs n := by
  obtain ⟨h1, h2⟩ := first_step (p := p) force dt w
  have hus : p.units (if p.precomp then genStep p force dt w else w).fs = idealUnits p w.fs := by
    rw [← h1.units]
    unfold Proj.units idealUnits
    congr 1
    funext u
    cases u with
    | nat k => rfl
    | cls =>
      by_cases hp : p.precomp = true
      · simp only [Proj.srcOf, idealHas, hp, if_true]; exact hgen hp
      · simp only [Proj.srcOf, idealHas, hp]; rfl
  unfold build
  simp only
  rw [hus, link_frame _ _ _ _ hl, compile_frame _ _ _ _ ho, h2 n hg]

/-! ### Edits -/

theorem newer_edit {w : World β} {is : List Name} {t : Nat} {n : Name} {d : β} (ht : t < w.clock) (h : Newer w.fs is t) :
    Newer (w.fs.write n (some ⟨d, w.clock⟩)) is t := by
  obtain ⟨i, hi, f, hf, hlt⟩ := h
  by_cases hin : i = n
  · exact ⟨i, hi, ⟨d, w.clock⟩, by rw [hin]; exact write_same _ _ _, ht⟩
  · exact ⟨i, hi, f, by rw [write_other _ _ hin]; exact hf, hlt⟩

theorem newer_now {w : World β} {is : List Name} {t : Nat} {n : Name} {d : β} (ht : t < w.clock) (h : n ∈ Name.ver :: is) :
    Newer (w.fs.write n (some ⟨d, w.clock⟩)) is t := ⟨n, h, ⟨d, w.clock⟩, write_same _ _ _, ht⟩

theorem data_write_ne {fs : Fs β} {n m : Name} {f : Option (File β)} (h : m ≠ n) : (fs.write n f).data m = fs.data m := by
  unfold Fs.data; rw [write_other _ _ h]

theorem cfg_write_ne {fs : Fs β} {n : Name} {f : Option (File β)} (h : ∀ c, p.cfg = some c → Name.src c ≠ n) :
    p.cfgData (fs.write n f) = p.cfgData fs := by
  unfold Proj.cfgData
  cases hc : p.cfg with
  | none => rfl
  | some c => exact data_write_ne (h c hc)

theorem gen_write_ne {fs : Fs β} {n : Name} {f : Option (File β)} (h : .src p.cls ≠ n) (hd : ∀ d ∈ p.deps, n = .src d → d = p.cls) :
    idealGen p (fs.write n f) = idealGen p fs := by
  unfold idealGen
  rw [data_write_ne h]
  congr 1
  apply List.map_congr_left
  intro d hmem
  apply data_write_ne
  intro e
  exact h (by rw [← hd d hmem e.symm]; exact e)

theorem obj_write_ne {fs : Fs β} {n : Name} {f : Option (File β)} {u : Src} (h : n ∉ Name.ver :: srcIns p u)
    (hd : ∀ d ∈ p.deps, n = .src d → d = p.cls) : idealObj p (fs.write n f) u = idealObj p fs u := by
  have hm : ∀ {i}, i ∈ Name.ver :: srcIns p u → i ≠ n := fun hi e => h (e ▸ hi)
  have hcls : Name.src p.cls ≠ n := hm (by unfold srcIns; simp)
  have hcfg : ∀ c, p.cfg = some c → Name.src c ≠ n := fun c hc => hm (by unfold srcIns; simp [hc])
  have hsrc : idealSrc p (fs.write n f) u = idealSrc p fs u := by
    cases u with
    | nat k => exact data_write_ne (hm (by unfold srcIns ownSrc; simp))
    | cls =>
      unfold idealSrc
      by_cases hp : p.precomp = true
      · simp only [hp, if_true]; rw [gen_write_ne hcls hd]
      · simp only [hp]; exact data_write_ne (hm (by unfold srcIns ownSrc; simp [hp]))
  unfold idealObj
  rw [hsrc, cfg_write_ne hcfg, data_write_ne (hm List.mem_cons_self)]
  congr 1
  apply List.map_congr_left
  intro x hx
  exact data_write_ne (hm (by unfold srcIns; simp [hx]))

theorem has_write {fs : Fs β} {n : Name} {f : File β} {u : Src} (h : n ∉ srcIns p u) :
    idealHas p (fs.write n (some f)) u = idealHas p fs u := by
  cases u with
  | nat k =>
    unfold idealHas
    simp only
    rw [write_other]
    intro e; exact h (by rw [← e]; unfold srcIns ownSrc; simp)
  | cls =>
    unfold idealHas
    by_cases hp : p.precomp = true
    · simp [hp]
    · simp only [hp]
      rw [write_other]
      intro e; exact h (by rw [← e]; unfold srcIns ownSrc; simp [hp])

theorem has_grows {fs : Fs β} {n : Name} {f : File β} {u : Src} (h : idealHas p fs u = true) :
    idealHas p (fs.write n (some f)) u = true := by
  have key : ∀ k, (fs (.src k)).isSome = true → ((fs.write n (some f)) (.src k)).isSome = true := by
    intro k hk
    by_cases e : Name.src k = n
    · rw [e, write_same]; rfl
    · rw [write_other _ _ e]; exact hk
  cases u with
  | nat k => exact key k h
  | cls =>
    unfold idealHas at h ⊢
    by_cases hp : p.precomp = true
    · simp [hp]
    · simp only [hp] at h ⊢; exact key _ h

theorem inv_edit {w : World β} (hi : Inv p w) {n : Name} {d : β} (hn : ¬ Output n) (hd : ∀ d ∈ p.deps, n = .src d → d = p.cls)
    (hlate : ∀ m f, Output m → w.fs m = some f → f.mtime < w.clock) :
    Inv p { w with fs := w.fs.write n (some ⟨d, w.clock⟩) } := by
  have hout : ∀ m, Output m → m ≠ n := fun m hm e => hn (e ▸ hm)
  refine ⟨?_, ?_, ?_, ?_, ?_⟩
  · intro m f hf
    have hf : w.fs.write n (some ⟨d, w.clock⟩) m = some f := hf
    by_cases hm : m = n
    · subst hm; rw [write_same] at hf; cases hf; exact Nat.le_refl _
    · rw [write_other _ _ hm] at hf; exact hi.past m f hf
  · show ((w.fs.write n (some ⟨d, w.clock⟩)) (.src p.cls)).isSome = true
    by_cases e : Name.src p.cls = n
    · rw [e, write_same]; rfl
    · rw [write_other _ _ e]; exact hi.cls
  · intro g hg
    have hg : w.fs.write n (some ⟨d, w.clock⟩) .gen = some g := hg
    rw [write_other _ _ (hout .gen trivial)] at hg
    have ht := hlate .gen g trivial hg
    show g.data = idealGen p (w.fs.write n _) ∨ Newer (w.fs.write n _) _ _
    by_cases e : Name.src p.cls = n
    · exact .inr (newer_now ht (by rw [← e]; simp))
    · rcases hi.gen g hg with h | h
      · exact .inl (by rw [gen_write_ne e hd]; exact h)
      · exact .inr (newer_edit ht h)
  · intro u o ho
    have ho : w.fs.write n (some ⟨d, w.clock⟩) (objOf u) = some o := ho
    rw [write_other _ _ (hout _ (objOf_out u))] at ho
    have ht := hlate _ o (objOf_out u) ho
    show o.data = idealObj p (w.fs.write n _) u ∨ Newer (w.fs.write n _) _ _
    by_cases e : n ∈ Name.ver :: srcIns p u
    · exact .inr (newer_now ht e)
    · rcases hi.obj u o ho with h | h
      · exact .inl (by rw [obj_write_ne e hd]; exact h)
      · exact .inr (newer_edit ht h)
  · intro l hl
    have hl : w.fs.write n (some ⟨d, w.clock⟩) .lib = some l := hl
    rw [write_other _ _ (hout .lib trivial)] at hl
    have ht := hlate .lib l trivial hl
    show idealUnits p (w.fs.write n _) = [] ∨ l.data = idealLib p (w.fs.write n _) ∨
      ∃ u ∈ idealUnits p (w.fs.write n _), Newer (w.fs.write n _) _ _
    by_cases hex : ∃ u ∈ idealUnits p (w.fs.write n (some ⟨d, w.clock⟩)), n ∈ Name.ver :: srcIns p u
    · obtain ⟨u, hu, hmem⟩ := hex
      exact .inr (.inr ⟨u, hu, newer_now ht hmem⟩)
    · by_cases hnil : idealUnits p (w.fs.write n (some ⟨d, w.clock⟩)) = []
      · exact .inl hnil
      · have hno : ∀ u ∈ idealUnits p (w.fs.write n (some ⟨d, w.clock⟩)), n ∉ Name.ver :: srcIns p u :=
          fun u hu h => hex ⟨u, hu, h⟩
        have hcfg : ∀ c, p.cfg = some c → Name.src c ≠ n := by
          intro c hc e
          cases hU : idealUnits p (w.fs.write n (some ⟨d, w.clock⟩)) with
          | nil => exact hnil hU
          | cons u us =>
            exact hno u (by rw [hU]; exact List.mem_cons_self) (by rw [← e]; unfold srcIns; simp [hc])
        have hU : idealUnits p (w.fs.write n (some ⟨d, w.clock⟩)) = idealUnits p w.fs := by
          unfold idealUnits
          rw [cfg_write_ne hcfg]
          apply List.filter_congr
          intro u hu
          cases hb : idealHas p (w.fs.write n (some ⟨d, w.clock⟩)) u with
          | true =>
            have hmem : u ∈ idealUnits p (w.fs.write n (some ⟨d, w.clock⟩)) := by
              unfold idealUnits
              rw [cfg_write_ne hcfg]
              exact List.mem_filter.2 ⟨hu, hb⟩
            have := hno u hmem
            rw [← has_write (f := ⟨d, w.clock⟩) (fs := w.fs) (fun h => this (List.mem_cons_of_mem _ h))]
            exact hb.symm
          | false =>
            cases hb' : idealHas p w.fs u with
            | false => rfl
            | true => rw [has_grows hb'] at hb; cases hb
        have hL : idealLib p (w.fs.write n (some ⟨d, w.clock⟩)) = idealLib p w.fs := by
          unfold idealLib
          rw [cfg_write_ne hcfg]
          congr 1
          rw [hU]
          apply List.map_congr_left
          intro u hu
          rw [obj_write_ne (hno u (hU ▸ hu)) hd]
        rcases hi.lib l hl with h | h | ⟨u, hu, h⟩
        · exact .inl (hU.trans h)
        · exact .inr (.inl (by rw [hL]; exact h))
        · exact .inr (.inr ⟨u, hU ▸ hu, newer_edit ht h⟩)

theorem inv_history : ∀ (es : List (Ev β)) {w : World β}, Inv p w → Calm p w es → Inv p (history p w es) := by
  intro es
  induction es with
  | nil => intro w hi _; exact hi
  | cons e es ih =>
    intro w hi hc
    obtain ⟨h1, h2⟩ := hc
    refine ih ?_ h2
    cases e with
    | edit n d => exact inv_edit hi h1.1 h1.2.1 h1.2.2
    | put _ _ _ => exact h1.elim
    | remove _ => exact h1.elim
    | wait k => exact inv_wait hi (Nat.le_add_right _ _)
    | build dt => exact (build_spec false dt hi).1

/-! ### Forced builds -/

theorem force_compile (dt : Name → Nat) : ∀ (us : List Src) (w : World β), (p.precomp = true → w.fs.data .gen = some (idealGen p w.fs)) →
    let w' := us.foldl (compileStep p true dt) w
    SameSrc w.fs w'.fs ∧ w'.fs .gen = w.fs .gen ∧
    ∀ u, (u ∈ us ∨ w.fs.data (objOf u) = some (idealObj p w.fs u)) → w'.fs.data (objOf u) = some (idealObj p w.fs u) := by
  intro us
  induction us with
  | nil => intro w _; exact ⟨SameSrc.refl _, rfl, fun u h => h.resolve_left (fun h => by cases h)⟩
  | cons v us ih =>
    intro w hg
    have hsrc : w.fs.data (p.srcOf v) = idealSrc p w.fs v := by
      cases v with
      | nat n => rfl
      | cls =>
        by_cases hp : p.precomp = true
        · simp only [Proj.srcOf, idealSrc, hp, if_true]; exact hg hp
        · simp only [Proj.srcOf, idealSrc, hp]; rfl
    have hstep : compileStep p true dt w v =
        { fs := w.fs.write (objOf v) (some ⟨idealObj p w.fs v, w.clock + dt (objOf v)⟩), clock := w.clock + dt (objOf v) } := by
      unfold compileStep
      simp only [need_force, if_true, hsrc]
      rfl
    rw [List.foldl_cons, hstep]
    have hs : SameSrc w.fs (w.fs.write (objOf v) (some ⟨idealObj p w.fs v, w.clock + dt (objOf v)⟩)) := same_write (objOf_out v) _
    have hgen : w.fs.write (objOf v) (some ⟨idealObj p w.fs v, w.clock + dt (objOf v)⟩) .gen = w.fs .gen :=
      write_other _ _ (objOf_ne_gen v).symm
    obtain ⟨k1, k2, k3⟩ := ih (World.mk (w.fs.write (objOf v) (some ⟨idealObj p w.fs v, w.clock + dt (objOf v)⟩))
        (w.clock + dt (objOf v))) (fun hp => by
      show Fs.data (w.fs.write (objOf v) _) .gen = _
      unfold Fs.data; rw [hgen, hs.gen]; exact hg hp)
    refine ⟨hs.trans k1, k2.trans hgen, ?_⟩
    intro u h
    rw [← hs.obj u]
    apply k3
    by_cases huv : u = v
    · right
      subst huv
      show Fs.data (w.fs.write (objOf u) _) (objOf u) = some (idealObj p (w.fs.write (objOf u) _) u)
      rw [hs.obj]
      unfold Fs.data; rw [write_same]; rfl
    · rcases h with h | h
      · rcases List.mem_cons.1 h with h | h
        · exact absurd h huv
        · exact .inl h
      · right
        show Fs.data (w.fs.write (objOf v) _) (objOf u) = some (idealObj p (w.fs.write (objOf v) _) u)
        rw [hs.obj, data_write_ne (fun e => huv (objOf_inj e))]
        exact h

theorem force_build (dt : Name → Nat) (w : World β) :
    let w' := build p true dt w
    SameSrc w.fs w'.fs ∧ (p.precomp = true → w'.fs.data .gen = some (idealGen p w.fs)) ∧
    (∀ u ∈ idealUnits p w.fs, w'.fs.data (objOf u) = some (idealObj p w.fs u)) ∧
    (idealUnits p w.fs ≠ [] → w'.fs.data .lib = some (idealLib p w.fs)) := by
  obtain ⟨h1, h2⟩ := first_step (p := p) true dt w
  obtain ⟨w1, hw1⟩ : ∃ w1, (if p.precomp then genStep p true dt w else w) = w1 := ⟨_, rfl⟩
  have hg : p.precomp = true → w1.fs.data .gen = some (idealGen p w1.fs) := by
    intro hp
    simp only [hw1] at h1
    rw [h1.gen, ← hw1]
    simp only [hp, if_true, genStep, need_force]
    unfold Fs.data; rw [write_same]; rfl
  simp only [hw1] at h1 h2
  have hus : p.units w1.fs = idealUnits p w.fs := by
    rw [← h1.units]
    unfold Proj.units idealUnits
    congr 1
    funext u
    cases u with
    | nat k => rfl
    | cls =>
      by_cases hp : p.precomp = true
      · simp only [Proj.srcOf, idealHas, hp, if_true]
        have := hg hp
        unfold Fs.data at this
        cases hc : w1.fs .gen with
        | none => rw [hc] at this; cases this
        | some _ => rfl
      · simp only [Proj.srcOf, idealHas, hp]; rfl
  obtain ⟨k1, k2, k3⟩ := force_compile dt (idealUnits p w.fs) w1 hg
  unfold build
  simp only [hw1, hus]
  obtain ⟨w2, hw2⟩ : ∃ w2, (idealUnits p w.fs).foldl (compileStep p true dt) w1 = w2 := ⟨_, rfl⟩
  simp only [hw2] at k1 k2 k3 ⊢
  have hs2 : SameSrc w.fs w2.fs := h1.trans k1
  have hl : ∀ n, n ≠ .lib → (linkStep p true dt (idealUnits p w.fs) w2).fs n = w2.fs n :=
    fun n hn => link_frame _ _ _ _ (fun e => absurd e hn)
  have hld : ∀ n, n ≠ .lib → (linkStep p true dt (idealUnits p w.fs) w2).fs.data n = w2.fs.data n := by
    intro n hn; unfold Fs.data; rw [hl n hn]
  refine ⟨fun n hn => (hl n (fun e => hn (by rw [e]; trivial))).trans (hs2 n hn), ?_, ?_, ?_⟩
  · intro hp
    rw [hld _ Name.noConfusion, ← h1.gen, ← hg hp]
    unfold Fs.data; rw [k2]
  · intro u hu
    rw [hld _ (objOf_ne_lib u), k3 u (.inl hu), h1.obj]
  · intro hne
    unfold linkStep
    simp only [hne, if_false, need_force, if_true]
    unfold Fs.data
    rw [write_same]
    show some (p.ld (p.cfgData w2.fs) _) = _
    rw [hs2.cfg]
    unfold idealLib
    congr 2
    apply List.map_congr_left
    intro u hu
    have := k3 u (.inl hu)
    rw [h1.obj] at this
    exact this

/-! ### Names -/

theorem noDouble_append : ∀ (q r : List Char), ¬ NoDouble (q ++ '_' :: '_' :: r) := by
  intro q
  induction q with
  | nil => intro r h; exact h.1 rfl rfl
  | cons c q ih => intro r h; exact ih r h.2

/-- The parts of a class name and a method name as `create_cfunc_name` writes them. -/
def joined : List (List Char) → List Char → List Char
  | [], m => m
  | q :: qs, m => q ++ '_' :: '_' :: joined qs m

theorem split_first : ∀ (p q r r' : List Char), NoDouble p → NoDouble q → p.getLast? ≠ some '_' → q.getLast? ≠ some '_' →
    p ++ '_' :: '_' :: r = q ++ '_' :: '_' :: r' → p = q ∧ r = r' := by
  intro p
  induction p with
  | nil =>
    intro q r r' _ hq _ hlq h
    cases q with
    | nil => simp at h; exact ⟨rfl, h⟩
    | cons c q =>
      simp only [List.nil_append, List.cons_append, List.cons.injEq] at h
      obtain ⟨rfl, h⟩ := h
      cases q with
      | nil => exact absurd rfl hlq
      | cons d q =>
        simp only [List.cons_append, List.cons.injEq] at h
        exact absurd (by rw [← h.1]; rfl) (hq.1 rfl)
  | cons c p ih =>
    intro q r r' hp hq hlp hlq h
    cases q with
    | nil =>
      simp only [List.nil_append, List.cons_append, List.cons.injEq] at h
      obtain ⟨rfl, h⟩ := h
      cases p with
      | nil => exact absurd rfl hlp
      | cons d p =>
        simp only [List.cons_append, List.cons.injEq] at h
        exact absurd (by rw [h.1]; rfl) (hp.1 rfl)
    | cons d q =>
      simp only [List.cons_append, List.cons.injEq] at h
      obtain ⟨rfl, h⟩ := h
      have hlp' : p.getLast? ≠ some '_' := by
        cases p with
        | nil => simp
        | cons e p => rw [List.getLast?_cons_cons] at hlp; exact hlp
      have hlq' : q.getLast? ≠ some '_' := by
        cases q with
        | nil => simp
        | cons e q => rw [List.getLast?_cons_cons] at hlq; exact hlq
      obtain ⟨h1, h2⟩ := ih q r r' hp.2 hq.2 hlp' hlq' h
      exact ⟨by rw [h1], h2⟩

theorem joined_inj : ∀ (ps qs : List (List Char)) (m m' : List Char), (∀ x ∈ ps, Part x) → (∀ x ∈ qs, Part x) → Ident m → Ident m' →
    joined ps m = joined qs m' → ps = qs ∧ m = m' := by
  intro ps
  induction ps with
  | nil =>
    intro qs m m' _ _ hm _ h
    cases qs with
    | nil => exact ⟨rfl, h⟩
    | cons q qs => 
      have h : m = q ++ '_' :: '_' :: joined qs m' := h
      exact absurd (h ▸ hm.noDouble) (noDouble_append q (joined qs m'))
  | cons p ps ih =>
    intro qs m m' hps hqs hm hm' h
    cases qs with
    | nil => 
      have h : m' = p ++ '_' :: '_' :: joined ps m := h.symm
      exact absurd (h ▸ hm'.noDouble) (noDouble_append p (joined ps m))
    | cons q qs =>
      have hp := hps p List.mem_cons_self
      have hq := hqs q List.mem_cons_self
      obtain ⟨h1, h2⟩ := split_first p q _ _ hp.noDouble hq.noDouble hp.last hq.last h
      obtain ⟨h3, h4⟩ := ih qs m m' (fun x hx => hps x (List.mem_cons_of_mem _ hx)) (fun x hx => hqs x (List.mem_cons_of_mem _ hx))
        hm hm' h2
      exact ⟨by rw [h1, h3], h4⟩

theorem underscore_id {s : List Char} (h : ':' ∉ s) : underscore s = s := by
  unfold underscore
  conv => rhs; rw [← List.map_id s]
  apply List.map_congr_left
  intro c hc
  have : c ≠ ':' := fun e => h (e ▸ hc)
  rw [if_neg this]; rfl

theorem underscore_name : ∀ (ps : List (List Char)) (m : List Char), ps ≠ [] → (∀ x ∈ ps, ':' ∉ x) → ':' ∉ m →
    underscore (className ps ++ ':' :: ':' :: m) = joined ps m := by
  intro ps
  induction ps with
  | nil => intro m h; exact absurd rfl h
  | cons p ps ih =>
    intro m _ hps hm
    have hp := hps p List.mem_cons_self
    have happ : ∀ a b : List Char, underscore (a ++ b) = underscore a ++ underscore b := fun a b => List.map_append
    have hcc : ∀ b : List Char, underscore (':' :: ':' :: b) = '_' :: '_' :: underscore b := fun b => rfl
    cases ps with
    | nil =>
      simp only [className, joined]
      rw [happ, hcc, underscore_id hp, underscore_id hm]
    | cons q ps =>
      have := ih m (List.cons_ne_nil _ _) (fun x hx => hps x (List.mem_cons_of_mem _ hx)) hm
      simp only [className, joined] at this ⊢
      rw [List.append_assoc, happ, underscore_id hp]
      simp only [List.cons_append]
      rw [hcc, this]

end SPVM.Build
