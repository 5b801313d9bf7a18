import Verif.Lemmas.TypesAssign
/-!
# Interfaces: the checks decide the specification
-/
set_option linter.unusedSimpArgs false
namespace SPVM
namespace Types
open VM (Bytes)
open Spec.Types

/-- `y` gives every answer that `x` gives. -/
def Le (x y : Out α) : Prop := ∀ b, x = .ok b → y = .ok b

theorem Le.rfl' {x : Out α} : Le x x := fun _ h => h

theorem assignWith_mono {w : World} {sup sup' hi hi' : Nat → Nat → Out Bool} {na im : Bool} {d s : Ty}
    (h1 : Le (sup d.bt s.bt) (sup' d.bt s.bt)) (h2 : Le (hi s.bt d.bt) (hi' s.bt d.bt)) :
    Le (assignWith w sup hi na im d s) (assignWith w sup' hi' na im d s) := by
  intro a
  have b1 : ∀ f : Bool → Out Ans, ((sup d.bt s.bt >>= f) = .ok a → (sup' d.bt s.bt >>= f) = .ok a) := by
    intro f
    cases h : sup d.bt s.bt with
    | ok b => rw [h1 b h]; exact id
    | die m => intro e; cases e
    | ub => intro e; cases e
  have b2 : ∀ f : Bool → Out Ans, ((hi s.bt d.bt >>= f) = .ok a → (hi' s.bt d.bt >>= f) = .ok a) := by
    intro f
    cases h : hi s.bt d.bt with
    | ok b => rw [h2 b h]; exact id
    | die m => intro e; cases e
    | ub => intro e; cases e
  have b3 : ∀ (f f' : Bool → Out Ans), (∀ b, f b = .ok a → f' b = .ok a) →
      ((sup d.bt s.bt >>= f) = .ok a → (sup' d.bt s.bt >>= f') = .ok a) := by
    intro f f' hf
    cases h : sup d.bt s.bt with
    | ok b => rw [h1 b h]; exact hf b
    | die m => intro e; cases e
    | ub => intro e; cases e
  have ite' : ∀ (c : Prop) [Decidable c] (x x' y y' : Out Ans), (x = .ok a → x' = .ok a) → (y = .ok a → y' = .ok a) →
      ((if c then x else y) = .ok a → (if c then x' else y') = .ok a) := by
    intro c _ x x' y y' hx hy
    split <;> assumption
  unfold assignWith
  repeat' first | exact id | exact b1 _ | exact b2 _ | (apply ite') | (apply b3; intro b)

theorem satisfyMethod_mono {asg asg' : Ty → Ty → Out Ans} (h : ∀ d s, Le (asg d s) (asg' d s)) (dm sm : Method) :
    Le (satisfyMethod asg dm sm) (satisfyMethod asg' dm sm) := by
  intro b e
  unfold satisfyMethod at *
  have hb : ∀ x y : Ty, Le (do let a ← asg x y; Out.ok a.plain) (do let a ← asg' x y; Out.ok a.plain) := by
    intro x y b e
    cases hx : asg x y with
    | ok a => rw [hx] at e; rw [h x y a hx]; exact e
    | die m => rw [hx] at e; cases e
    | ub => rw [hx] at e; cases e
  by_cases h1 : sm.isClass = true
  · rwa [if_pos h1] at e ⊢
  rw [if_neg h1] at e ⊢
  by_cases h2 : dm.isClass = true
  · rwa [if_pos h2] at e ⊢
  rw [if_neg h2] at e ⊢
  by_cases h3 : ¬ (dm.args.length ≥ sm.required)
  · rwa [if_pos h3] at e ⊢
  rw [if_neg h3] at e ⊢
  cases ha : andAll (fun p : Ty × Ty => do let a ← asg p.1 p.2; Out.ok a.plain) (argPairs dm sm) with
  | ok c =>
    rw [ha] at e
    rw [andAll_mono (fun p _ b e => hb p.1 p.2 b e) ha]
    cases c with
    | false => exact e
    | true => exact hb _ _ b e
  | die m => rw [ha] at e; cases e
  | ub => rw [ha] at e; cases e

theorem checkMethod_mono {w : World} {n m : Nat} (hn : n ≤ m) {asg asg' : Ty → Ty → Out Ans} (h : ∀ d s, Le (asg d s) (asg' d s))
    (src : Nat) (dm : Method) : Le (checkMethod w n asg src dm) (checkMethod w m asg' src dm) := by
  intro b e
  unfold checkMethod at *
  by_cases h1 : dm.isClass = true
  · rwa [if_pos h1] at e ⊢
  rw [if_neg h1] at e ⊢
  cases hf : findLoop w dm.name n (some src) with
  | ok r =>
    rw [hf] at e
    rw [findLoop_mono hn hf]
    cases r with
    | none => exact e
    | some sm => exact satisfyMethod_mono h dm sm b e
  | die m => rw [hf] at e; cases e
  | ub => rw [hf] at e; cases e

theorem hasInterfaceCommonWith_mono {w : World} {n m : Nat} (hn : n ≤ m) {asg asg' : Ty → Ty → Out Ans}
    (h : ∀ d s, Le (asg d s) (asg' d s)) (src dist : Nat) :
    Le (hasInterfaceCommonWith w n asg src dist) (hasInterfaceCommonWith w m asg' src dist) := by
  intro b e
  unfold hasInterfaceCommonWith at *
  split
  · rename_i h1; rwa [if_pos h1] at e
  · rename_i h1
    rw [if_neg h1] at e
    split
    · rename_i h2; rwa [if_pos h2] at e
    · rename_i h2
      rw [if_neg h2] at e
      exact andAll_mono (fun dm _ => checkMethod_mono hn h src dm) e

theorem hasInterface_mono {w : World} {n m : Nat} (hn : n ≤ m) (src dist : Nat) :
    Le (hasInterface w n src dist) (hasInterface w m src dist) := by
  induction n generalizing m src dist with
  | zero => intro b e; simp [hasInterface] at e
  | succ n ih =>
    obtain ⟨m, rfl⟩ : ∃ k, m = k + 1 := ⟨m - 1, by omega⟩
    intro b e
    simp only [hasInterface] at e ⊢
    split
    · rename_i h1; rwa [if_pos h1] at e
    · rename_i h1
      rw [if_neg h1] at e
      exact hasInterfaceCommonWith_mono (by omega)
        (fun d s => assignWith_mono (fun _ => isSuperClass_mono (by omega)) (ih (by omega) _ _)) src dist b e

theorem assign_mono {w : World} {n m : Nat} (hn : n ≤ m) (na im : Bool) (d s : Ty) :
    Le (assign w n na im d s) (assign w m na im d s) :=
  assignWith_mono (fun _ => isSuperClass_mono hn) (hasInterface_mono hn _ _)

theorem isSuperClass_no {w : World} {n d s : Nat} (h : cat w d ≠ .cls ∨ cat w s ≠ .cls) :
    isSuperClass w n d s = .ok false := by
  unfold isSuperClass
  split
  · rfl
  · split
    · rfl
    · rename_i h1 h2; exact absurd h (by simp_all)

/-! ## Soundness -/

theorem yesWith_sub {w : World} (hw : Wf w) {n : Nat} {hi : Nat → Nat → Out Bool} {im : Bool} {d s : Ty}
    (hhi : ∀ s d, hi s d = .ok true → Implements w s d) (fd : TyFacts (cat w d.bt) d) (fs : TyFacts (cat w s.bt) s)
    (h : YesWith w (isSuperClass w n) hi im d s) : Assignable w im d s := by
  rcases h with ⟨h1, h2⟩ | ⟨h1, h2, h3, h4, h5⟩ | ⟨h1, h2, h3, h4, h5, h6, h7, h8⟩ | ⟨h1, h2, h3, h4, h5, h6, h7, h8⟩ |
    ⟨h1, h2, h3⟩ | ⟨h1, h2, h3, h4⟩
  · exact .undef ((hasCat_iff (by simp)).2 h1) (isObj_iff.2 h2)
  · exact .same (by rw [hasCat_iff (by simp)]; exact h1) h2 h3 h4 h5
  · obtain ⟨k1, k2, k3⟩ := isSuperClass_true hw h8
    exact .subclass h1 h2 h3 h4 k1 k2 k3
  · exact .iface h1 h2 h3 h4 ((hasCat_iff (by simp)).2 h5) (hhi _ _ h8)
  · exact .any ((hasCat_iff (by simp)).2 h1) h2 (isObj_iff.2 h3)
  · exact .anyArray ((hasCat_iff (by simp)).2 h1) h2 h3 (isObj_iff.2 h4)

theorem assign_sub {w : World} (hw : Wf w) {n : Nat} {hi : Nat → Nat → Out Bool} {im : Bool} {d s : Ty}
    (hhi : ∀ s d, hi s d = .ok true → Implements w s d) (hd : WfTy w d) (hs : WfTy w s)
    (h : assignWith w (isSuperClass w n) hi false im d s = .ok .yes) : Assignable w im d s := by
  have fd := facts hw hd
  have fs := facts hw hs
  exact yesWith_sub hw hhi fd fs ((assignWith_yes fd fs isSuperClass_no).1 h)

theorem plain_true {x : Out Ans} : (do let a ← x; Out.ok a.plain) = .ok true ↔ x = .ok .yes := by
  rcases x with (_|_|_) | _ | _ <;> simp [Ans.plain]

theorem argPairs_mem {dm sm : Method} {p : Ty × Ty} :
    p ∈ argPairs dm sm ↔ ∃ i, 0 < i ∧ dm.args[i]? = some p.1 ∧ sm.args[i]? = some p.2 := by
  unfold argPairs
  rw [List.mem_iff_getElem?]
  constructor
  · rintro ⟨i, h⟩
    rw [List.getElem?_zip_eq_some, List.getElem?_drop, List.getElem?_drop] at h
    exact ⟨1 + i, by omega, h⟩
  · rintro ⟨i, h0, h⟩
    refine ⟨i - 1, ?_⟩
    rw [List.getElem?_zip_eq_some, List.getElem?_drop, List.getElem?_drop]
    rwa [show 1 + (i - 1) = i by omega]

theorem satisfyMethod_true {asg : Ty → Ty → Out Ans} {dm sm : Method} :
    satisfyMethod asg dm sm = .ok true ↔
      sm.isClass = false ∧ dm.isClass = false ∧ sm.required ≤ dm.args.length ∧
      (∀ i dt st, 0 < i → dm.args[i]? = some dt → sm.args[i]? = some st → asg dt st = .ok .yes) ∧
      asg dm.ret sm.ret = .ok .yes := by
  unfold satisfyMethod
  by_cases h1 : sm.isClass = true
  · simp [h1]
  by_cases h2 : dm.isClass = true
  · simp [h1, h2]
  by_cases h3 : dm.args.length ≥ sm.required
  · rw [if_neg h1, if_neg h2, if_neg (by simpa using h3)]
    simp only [h1, h2, h3, true_and]
    have key : (∀ i dt st, 0 < i → dm.args[i]? = some dt → sm.args[i]? = some st → asg dt st = .ok .yes) ↔
        andAll (fun p : Ty × Ty => do let a ← asg p.1 p.2; Out.ok a.plain) (argPairs dm sm) = .ok true := by
      rw [andAll_true]
      constructor
      · intro h p hp
        obtain ⟨i, h0, k1, k2⟩ := argPairs_mem.1 hp
        exact plain_true.2 (h i _ _ h0 k1 k2)
      · intro h i dt st h0 k1 k2
        exact plain_true.1 (h (dt, st) (argPairs_mem.2 ⟨i, h0, k1, k2⟩))
    rw [key, ← plain_true (x := asg dm.ret sm.ret)]
    cases andAll (fun p : Ty × Ty => do let a ← asg p.1 p.2; Out.ok a.plain) (argPairs dm sm) with
    | ok b => cases b <;> simp
    | die m => simp
    | ub => simp
  · simp [h1, h2, h3]

theorem checkMethod_true {w : World} (hw : Wf w) {n : Nat} {asg : Ty → Ty → Out Ans} {src : Nat} {bs : BT} (hs : w[src]? = some bs)
    {dm : Method} (hdm : dm.isClass = false) (hf : ∃ r, findLoop w dm.name n (some src) = .ok r) :
    checkMethod w n asg src dm = .ok true ↔
      (dm.isRequired = true → ∃ o sm, Resolves w dm.name src o sm) ∧
      ∀ o sm, Resolves w dm.name src o sm → satisfyMethod asg dm sm = .ok true := by
  obtain ⟨r, hr⟩ := hf
  have hx := findLoop_some hw hs hr
  unfold checkMethod
  rw [if_neg (by simp [hdm]), hr]
  cases r with
  | none =>
    simp only [Out.ok_bind]
    have : ∀ o sm, ¬ Resolves w dm.name src o sm := fun o sm h => by have := (hx sm).2 ⟨o, h⟩; cases this
    constructor
    · intro h
      exact ⟨fun hq => by simp [hq] at h, fun o sm h => absurd h (this o sm)⟩
    · rintro ⟨h, _⟩
      cases hq : dm.isRequired with
      | false => rfl
      | true => obtain ⟨o, sm, hh⟩ := h hq; exact absurd hh (this o sm)
  | some sm =>
    simp only [Out.ok_bind]
    obtain ⟨o, ho⟩ := (hx sm).1 rfl
    constructor
    · intro h
      refine ⟨fun _ => ⟨o, sm, ho⟩, fun o' sm' h' => ?_⟩
      rw [← (resolves_unique hw ho h').2]; exact h
    · rintro ⟨_, h⟩; exact h o sm ho

theorem mem_methods_wf {w : World} (hw : Wf w) {name : Bytes} {c o : Nat} {m : Method} (h : Resolves w name c o m) :
    WfTy w m.ret ∧ ∀ t ∈ m.args, WfTy w t := by
  induction h with
  | here h1 h2 _ => exact hw.types _ _ h1 _ h2
  | up _ _ _ _ ih => exact ih

theorem hasInterfaceCommon_sound {w : World} (hw : Wf w) {n : Nat} {hi : Nat → Nat → Out Bool}
    (hhi : ∀ s d, hi s d = .ok true → Implements w s d) {k s d : Nat}
    (e : hasInterfaceCommonWith w k (assignWith w (isSuperClass w n) hi false true) s d = .ok true) : Implements w s d := by
  unfold hasInterfaceCommonWith at e
  by_cases h1 : cat w s = .cls ∨ cat w s = .iface
  · rw [if_neg (fun hn => hn h1)] at e
    by_cases h2 : cat w d = .cls ∨ cat w d = .iface
    · rw [if_neg (fun hn => hn h2)] at e
      rw [andAll_true] at e
      have hs' : HasCat w s .cls ∨ HasCat w s .iface := by
        rw [hasCat_iff (by simp), hasCat_iff (by simp)]; exact h1
      have hd' : HasCat w d .cls ∨ HasCat w d .iface := by
        rw [hasCat_iff (by simp), hasCat_iff (by simp)]; exact h2
      obtain ⟨bs, hbs⟩ : ∃ b, w[s]? = some b := by rcases hs' with ⟨b, h, _⟩ | ⟨b, h, _⟩ <;> exact ⟨b, h⟩
      obtain ⟨bd, hbd⟩ : ∃ b, w[d]? = some b := by rcases hd' with ⟨b, h, _⟩ | ⟨b, h, _⟩ <;> exact ⟨b, h⟩
      simp only [hbd, Option.map_some, Option.getD_some] at e
      have key : ∀ m ∈ bd.methods, m.isClass = false →
          (m.isRequired = true → ∃ o sm, Resolves w m.name s o sm) ∧
          ∀ o sm, Resolves w m.name s o sm →
            satisfyMethod (assignWith w (isSuperClass w n) hi false true) m sm = .ok true := by
        intro m hm hc
        have em := e m hm
        have hf : ∃ r, findLoop w m.name k (some s) = .ok r := by
          unfold checkMethod at em
          rw [if_neg (by simp [hc])] at em
          cases hf : findLoop w m.name k (some s) with
          | ok r => exact ⟨r, rfl⟩
          | die x => rw [hf] at em; cases em
          | ub => rw [hf] at em; cases em
        exact (checkMethod_true hw hbs hc hf).1 em
      refine .mk hs' hd' hbd (fun m hm hc => (key m hm hc).1) ?_ ?_ ?_ ?_
      · exact fun m hm hc o sm h => (satisfyMethod_true.1 ((key m hm hc).2 o sm h)).1
      · exact fun m hm hc o sm h => (satisfyMethod_true.1 ((key m hm hc).2 o sm h)).2.2.1
      · intro m hm hc o sm h i dt st h0 k1 k2
        have := (satisfyMethod_true.1 ((key m hm hc).2 o sm h)).2.2.2.1 i dt st h0 k1 k2
        exact assign_sub hw hhi ((hw.types _ _ hbd m hm).2 dt (List.mem_of_getElem? k1))
          ((mem_methods_wf hw h).2 st (List.mem_of_getElem? k2)) this
      · intro m hm hc o sm h
        have := (satisfyMethod_true.1 ((key m hm hc).2 o sm h)).2.2.2.2
        exact assign_sub hw hhi (hw.types _ _ hbd m hm).1 (mem_methods_wf hw h).1 this
    · rw [if_pos h2] at e; cases e
  · rw [if_pos h1] at e; cases e

theorem hasInterface_sound {w : World} (hw : Wf w) (n : Nat) : ∀ s d, hasInterface w n s d = .ok true → Implements w s d := by
  induction n with
  | zero => intro s d e; simp [hasInterface] at e
  | succ n ih =>
    intro s d e
    simp only [hasInterface] at e
    split at e
    · cases e
    · exact hasInterfaceCommon_sound hw ih e

/-! ## Completeness -/

theorem Implements.src {w : World} {s d : Nat} (h : Implements w s d) : HasCat w s .cls ∨ HasCat w s .iface := by
  cases h; assumption

/-- A bound that works for all elements of a list. -/
theorem exists_bound {P : Nat → α → Prop} (hP : ∀ n m a, n ≤ m → P n a → P m a) (l : List α) (h : ∀ a ∈ l, ∃ n, P n a) :
    ∃ n, ∀ a ∈ l, P n a := by
  induction l with
  | nil => exact ⟨0, by simp⟩
  | cons a l ih =>
    obtain ⟨n, hn⟩ := ih (fun x hx => h x (by simp [hx]))
    obtain ⟨m, hm⟩ := h a (by simp)
    refine ⟨max n m, fun x hx => ?_⟩
    rcases List.mem_cons.1 hx with rfl | hx
    · exact hP m _ _ (Nat.le_max_right ..) hm
    · exact hP n _ _ (Nat.le_max_left ..) (hn x hx)

/-- The check of the methods succeeds for some fuel if each signature check does. -/
theorem common_complete {w : World} (hw : Wf w) {s d : Nat} {bd : BT}
    (hs' : HasCat w s .cls ∨ HasCat w s .iface) (hd' : HasCat w d .cls ∨ HasCat w d .iface) (hbd : w[d]? = some bd)
    (k1 : ∀ m ∈ bd.methods, m.isClass = false → m.isRequired = true → ∃ o sm, Resolves w m.name s o sm)
    (k2 : ∀ m ∈ bd.methods, m.isClass = false → ∀ o sm, Resolves w m.name s o sm → sm.isClass = false)
    (k3 : ∀ m ∈ bd.methods, m.isClass = false → ∀ o sm, Resolves w m.name s o sm → sm.required ≤ m.args.length)
    (k4 : ∀ m ∈ bd.methods, m.isClass = false → ∀ o sm, Resolves w m.name s o sm →
        ∀ i dt st, 0 < i → m.args[i]? = some dt → sm.args[i]? = some st → ∃ n, assign w n false true dt st = .ok .yes)
    (k5 : ∀ m ∈ bd.methods, m.isClass = false → ∀ o sm, Resolves w m.name s o sm → ∃ n, assign w n false true m.ret sm.ret = .ok .yes) :
    ∃ n, hasInterfaceCommonWith w n (assign w n false true) s d = .ok true := by
  obtain ⟨bs, hbs⟩ : ∃ b, w[s]? = some b := by rcases hs' with ⟨b, h, _⟩ | ⟨b, h, _⟩ <;> exact ⟨b, h⟩
  have key : ∀ m ∈ bd.methods, ∃ n, checkMethod w n (assign w n false true) s m = .ok true := by
    intro m hm
    by_cases hc : m.isClass = true
    · exact ⟨0, by simp [checkMethod, hc]⟩
    have hc : m.isClass = false := by simpa using hc
    by_cases hr : ∃ o sm, Resolves w m.name s o sm
    · obtain ⟨o, sm, hr⟩ := hr
      obtain ⟨n1, hn1⟩ := k5 m hm hc o sm hr
      obtain ⟨n2, hn2⟩ := exists_bound (P := fun n (p : Ty × Ty) => assign w n false true p.1 p.2 = .ok .yes)
        (fun n m a hnm h => assign_mono hnm _ _ _ _ _ h) (argPairs m sm) (fun p hp => by
          obtain ⟨i, h0, q1, q2⟩ := argPairs_mem.1 hp
          exact k4 m hm hc o sm hr i _ _ h0 q1 q2)
      refine ⟨n1 + n2 + rank w s + 2, ?_⟩
      obtain ⟨r, hf, _⟩ := findLoop_ok hw m.name s bs hbs (n1 + n2 + rank w s + 2) (by omega)
      rw [checkMethod_true hw hbs hc ⟨r, hf⟩]
      refine ⟨fun _ => ⟨o, sm, hr⟩, fun o' sm' h' => ?_⟩
      rw [← (resolves_unique hw hr h').2, satisfyMethod_true]
      refine ⟨k2 m hm hc o sm hr, hc, k3 m hm hc o sm hr, ?_, assign_mono (by omega) _ _ _ _ _ hn1⟩
      intro i dt st h0 q1 q2
      exact assign_mono (by omega) _ _ _ _ _ (hn2 (dt, st) (argPairs_mem.2 ⟨i, h0, q1, q2⟩))
    · refine ⟨rank w s + 2, ?_⟩
      obtain ⟨r, hf, _⟩ := findLoop_ok hw m.name s bs hbs (rank w s + 2) (by omega)
      rw [checkMethod_true hw hbs hc ⟨r, hf⟩]
      exact ⟨fun hq => k1 m hm hc hq, fun o sm h => absurd ⟨o, sm, h⟩ hr⟩
  obtain ⟨n, hn⟩ := exists_bound (P := fun n m => checkMethod w n (assign w n false true) s m = .ok true)
    (fun n k a hnk h => checkMethod_mono hnk (fun d s => assign_mono hnk _ _ d s) s a _ h) bd.methods key
  refine ⟨n, ?_⟩
  unfold hasInterfaceCommonWith
  rw [hasCat_iff (by simp), hasCat_iff (by simp)] at hs' hd'
  rw [if_neg (fun hn => hn hs'), if_neg (fun hn => hn hd'), andAll_true]
  simpa [hbd] using hn

theorem assign_yes {w : World} (hw : Wf w) {n : Nat} {im : Bool} {d s : Ty} (hd : WfTy w d) (hs : WfTy w s)
    (h : YesWith w (isSuperClass w n) (hasInterface w n) im d s) : assign w n false im d s = .ok .yes :=
  (assignWith_yes (facts hw hd) (facts hw hs) isSuperClass_no).2 h

theorem sub_complete {w : World} (hw : Wf w) {im : Bool} {d s : Ty} (h : Assignable w im d s) :
    WfTy w d → WfTy w s → ∃ n, assign w n false im d s = .ok .yes := by
  refine @Assignable.rec w (fun im d s _ => WfTy w d → WfTy w s → ∃ n, assign w n false im d s = .ok .yes)
    (fun s d _ => ∃ n, hasInterfaceCommonWith w n (assign w n false true) s d = .ok true)
    ?_ ?_ ?_ ?_ ?_ ?_ ?_ im d s h
  · intro s d im h1 h2 hd hs
    exact ⟨0, assign_yes hw hd hs (.inl ⟨(hasCat_iff (by simp)).1 h1, isObj_iff.1 h2⟩)⟩
  · intro d s im h1 h2 h3 h4 h5 hd hs
    rw [hasCat_iff (by simp)] at h1
    exact ⟨0, assign_yes hw hd hs (.inr (.inl ⟨h1, h2, h3, h4, h5⟩))⟩
  · intro im d s h1 h2 h3 h4 h5 h6 h7 hd hs
    refine ⟨rank w s.bt + 1, assign_yes hw hd hs ?_⟩
    refine .inr (.inr (.inl ⟨h1, h2, h3, h4, (hasCat_iff (by simp)).1 h5, (hasCat_iff (by simp)).1 h6, ?_, ?_⟩))
    · intro he; rw [he] at h7; exact hw.acyclic _ h7
    · obtain ⟨b, e1, e2⟩ := isSuperClass_ok hw d.bt s.bt (rank w s.bt + 1) (by omega)
      rw [e1, e2.2 ⟨h5, h6, h7⟩]
  · intro im d s h1 h2 h3 h4 h5 h6 ih hd hs
    obtain ⟨n, hn⟩ := ih
    have hsrc := Implements.src h6
    rw [hasCat_iff (by simp)] at h5
    refine ⟨n + 1, assign_yes hw hd hs ?_⟩
    by_cases he : d.bt = s.bt
    · refine .inr (.inl ⟨by rw [h5]; simp, he, h3, by rw [h1, h2], fun _ hm => ?_⟩)
      have := (facts hw hd).mutable hm
      rw [h5] at this; cases this
    · refine .inr (.inr (.inr (.inl ⟨h1, h2, h3, h4, h5, ?_, he, ?_⟩)))
      · rwa [hasCat_iff (by simp), hasCat_iff (by simp)] at hsrc
      · simp only [hasInterface]
        rw [if_neg (by simpa using h5)]
        exact hn
  · intro d s im h1 h2 h3 hd hs
    exact ⟨0, assign_yes hw hd hs (.inr (.inr (.inr (.inr (.inl ⟨(hasCat_iff (by simp)).1 h1, h2, isObj_iff.1 h3⟩)))))⟩
  · intro d s im h1 h2 h3 h4 hd hs
    exact ⟨0, assign_yes hw hd hs (.inr (.inr (.inr (.inr (.inr ⟨(hasCat_iff (by simp)).1 h1, h2, h3, isObj_iff.1 h4⟩)))))⟩
  · intro s d b h1 h2 h3 h4 h5 h6 h7 h8 ih7 ih8
    refine common_complete hw h1 h2 h3 h4 h5 h6 ?_ ?_
    · intro m hm hc o sm hr i dt st h0 q1 q2
      exact ih7 m hm hc o sm hr i dt st h0 q1 q2 ((hw.types _ _ h3 m hm).2 dt (List.mem_of_getElem? q1))
        ((mem_methods_wf hw hr).2 st (List.mem_of_getElem? q2))
    · intro m hm hc o sm hr
      exact ih8 m hm hc o sm hr (hw.types _ _ h3 m hm).1 (mem_methods_wf hw hr).1

theorem implements_complete {w : World} (hw : Wf w) {s d : Nat} (h : Implements w s d) :
    ∃ n, hasInterfaceCommonWith w n (assign w n false true) s d = .ok true := by
  cases h with
  | mk h1 h2 h3 h4 h5 h6 h7 h8 =>
    refine common_complete hw h1 h2 h3 h4 h5 h6 ?_ ?_
    · intro m hm hc o sm hr i dt st h0 q1 q2
      exact sub_complete hw (h7 m hm hc o sm hr i dt st h0 q1 q2) ((hw.types _ _ h3 m hm).2 dt (List.mem_of_getElem? q1))
        ((mem_methods_wf hw hr).2 st (List.mem_of_getElem? q2))
    · intro m hm hc o sm hr
      exact sub_complete hw (h8 m hm hc o sm hr) (hw.types _ _ h3 m hm).1 (mem_methods_wf hw hr).1

end Types
end SPVM
