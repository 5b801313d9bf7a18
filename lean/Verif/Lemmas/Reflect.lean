import Verif.Spec.Reflect

namespace SPVM.Reflect

/-! ### The pool -/

def PInv (p : Pool) : Prop :=
  ∀ v i, p.find v = some i →
    ∃ pre post, p.bytes = pre ++ (v ++ 0 :: post) ∧ p.strs[i]? = some (pre.length, v.length)

theorem find_add_old {p : Pool} {v w : Bytes} {i : Nat} (h : p.find v = some i) : (p.add w).find v = some i := by
  unfold Pool.add
  split
  · exact h
  · show List.lookup v (p.tbl ++ _) = some i
    rw [List.lookup_append]
    have h' : List.lookup v p.tbl = some i := h
    simp [h']

theorem find_add_self (p : Pool) (v : Bytes) : ∃ i, (p.add v).find v = some i := by
  unfold Pool.add
  split
  · rename_i i h; exact ⟨i, h⟩
  · rename_i h
    refine ⟨p.strs.length, ?_⟩
    show List.lookup v (p.tbl ++ _) = _
    have h' : List.lookup v p.tbl = none := h
    rw [List.lookup_append, h']
    simp [List.lookup]

theorem PInv.add {p : Pool} (hp : PInv p) (w : Bytes) : PInv (p.add w) := by
  unfold Pool.add
  split
  · exact hp
  · rename_i hw
    intro v i hv
    have hv' : List.lookup v (p.tbl ++ [(w, p.strs.length)]) = some i := hv
    rw [List.lookup_append] at hv'
    cases hl : List.lookup v p.tbl with
    | some j =>
      rw [hl] at hv'
      have hj : j = i := by simpa using hv'
      subst hj
      obtain ⟨pre, post, h1, h2⟩ := hp v j hl
      refine ⟨pre, post ++ (w ++ [0]), ?_, ?_⟩
      · show p.bytes ++ (w ++ [0]) = _
        rw [h1]; simp
      · show (p.strs ++ [_])[j]? = _
        have hlt : j < p.strs.length := by
          rcases Nat.lt_or_ge j p.strs.length with h | h
          · exact h
          · rw [List.getElem?_eq_none h] at h2; cases h2
        rw [List.getElem?_append_left hlt]; exact h2
    | none =>
      rw [hl] at hv'
      simp only [Option.none_or] at hv'
      by_cases hvw : v = w
      · subst hvw
        have hi : p.strs.length = i := by simpa [List.lookup] using hv'
        subst hi
        refine ⟨p.bytes, [], by simp, ?_⟩
        show (p.strs ++ [_])[p.strs.length]? = _
        simp
      · have : (v == w) = false := by simpa using hvw
        simp [List.lookup, this] at hv'

theorem PInv.close {p : Pool} (hp : PInv p) : PInv p.close := by
  intro v i hv
  obtain ⟨pre, post, h1, h2⟩ := hp v i hv
  refine ⟨pre, post ++ [0, 0, 0, 0], ?_, h2⟩
  show p.bytes ++ _ = _
  rw [h1]; simp

theorem pinv_empty : PInv {} := by
  intro v i h
  simp [Pool.find, List.lookup] at h

theorem pinv_foldl (l : List Bytes) : ∀ p : Pool, PInv p → PInv (l.foldl Pool.add p) := by
  induction l with
  | nil => intro p h; exact h
  | cons x xs ih => intro p h; exact ih _ (h.add x)

theorem find_foldl_old (l : List Bytes) : ∀ (p : Pool) (v : Bytes) (i : Nat), p.find v = some i →
    (l.foldl Pool.add p).find v = some i := by
  induction l with
  | nil => intro p v i h; exact h
  | cons x xs ih => intro p v i h; exact ih _ _ _ (find_add_old h)

theorem find_foldl (l : List Bytes) : ∀ (p : Pool) (v : Bytes), v ∈ l → ∃ i, (l.foldl Pool.add p).find v = some i := by
  induction l with
  | nil => intro p v h; cases h
  | cons x xs ih =>
    intro p v h
    rcases List.mem_cons.1 h with h | h
    · subst h
      obtain ⟨i, hi⟩ := find_add_self p v
      exact ⟨i, find_foldl_old xs _ _ _ hi⟩
    · exact ih _ _ h

theorem pool_inv (d : Decl) : PInv d.pool := (pinv_foldl _ _ pinv_empty).close

theorem pool_find (d : Decl) {v : Bytes} (h : v ∈ d.strings) : ∃ i, d.pool.find v = some i :=
  find_foldl d.strings {} v h

theorem takeWhile_nul {v : Bytes} (h : NoNul v) (post : Bytes) : (v ++ 0 :: post).takeWhile (· != 0) = v := by
  induction v with
  | nil => simp
  | cons x xs ih =>
    have hx : x ≠ 0 := fun e => h (by simp [e])
    have hxs : NoNul xs := fun e => h (List.mem_cons_of_mem _ e)
    have : (x != 0) = true := by simpa using hx
    rw [List.cons_append, List.takeWhile_cons, this]
    simp [ih hxs]

/-- The pointer `s` reads as `v` in every runtime whose basic type `cls` holds the pool of `d`. -/
def Reads (cls : Nat) (d : Decl) (s : SPtr) (v : Bytes) : Prop :=
  ∀ (rt : Rt) (b : RBasic), rt.types[cls]? = some b → b.pool = d.pool.bytes → Api.cstr rt s = .ok v

theorem strPtr_ok (cls : Nat) (d : Decl) {v : Bytes} (h : v ∈ d.strings) (hn : NoNul v) :
    ∃ s, strPtr cls d.pool v = .ok s ∧ Reads cls d s v := by
  obtain ⟨i, hi⟩ := pool_find d h
  obtain ⟨pre, post, h1, h2⟩ := pool_inv d v i hi
  refine ⟨(cls, pre.length), by simp [strPtr, hi, h2], ?_⟩
  intro rt b hb hp
  unfold Api.cstr
  simp only [hb, hp, h1, List.drop_left]
  rw [if_pos (by simp), takeWhile_nul hn]

theorem optPtr_ok (cls : Nat) (d : Decl) (o : Option Bytes) (h : ∀ v, o = some v → v ∈ d.strings ∧ NoNul v) :
    ∃ s, optPtr cls d.pool o = .ok s ∧
      ∀ (rt : Rt) (b : RBasic), rt.types[cls]? = some b → b.pool = d.pool.bytes → Api.optCstr rt s = .ok o := by
  cases o with
  | none => exact ⟨none, rfl, fun _ _ _ _ => rfl⟩
  | some v =>
    obtain ⟨hm, hn⟩ := h v rfl
    obtain ⟨s, hs, hr⟩ := strPtr_ok cls d hm hn
    refine ⟨some s, by simp [optPtr, hs], ?_⟩
    intro rt b hb hp
    simp [Api.optCstr, hr rt b hb hp]

theorem constantString_ok (d : Decl) (b : RBasic) (hp : b.pool = d.pool.bytes) (hs : b.strs = d.pool.strs) {v : Bytes}
    (h : v ∈ d.strings) : ∃ j, d.pool.find v = some j ∧ Api.constantString b j = some v := by
  obtain ⟨i, hi⟩ := pool_find d h
  obtain ⟨pre, post, h1, h2⟩ := pool_inv d v i hi
  refine ⟨i, hi, ?_⟩
  unfold Api.constantString
  rw [hs, h2, hp, h1]
  simp

/-! ### Filling arrays -/

theorem fillFrom_ok {f : Nat → α → Out β} {R : Nat → α → β → Prop} :
    ∀ (l : List α) (k : Nat), (∀ i x, x ∈ l → ∃ y, f i x = .ok y ∧ R i x y) →
      ∃ ys, fillFrom f k l = .ok ys ∧ ys.length = l.length ∧
        ∀ (i : Nat) (x : α), l[i]? = some x → ∃ y, ys[i]? = some y ∧ R (k + i) x y := by
  intro l
  induction l with
  | nil => intro k _; exact ⟨[], rfl, rfl, fun i x h => by simp at h⟩
  | cons a as ih =>
    intro k h
    obtain ⟨y, hy, hR⟩ := h k a (by simp)
    obtain ⟨ys, hys, hl, hg⟩ := ih (k + 1) (fun i x hx => h i x (List.mem_cons_of_mem _ hx))
    refine ⟨y :: ys, by simp [fillFrom, hy, hys], by simp [hl], ?_⟩
    intro i x hx
    cases i with
    | zero =>
      have : a = x := by simpa using hx
      subst this
      exact ⟨y, by simp, hR⟩
    | succ i =>
      obtain ⟨z, hz, hr⟩ := hg i x (by simpa using hx)
      refine ⟨z, by simpa using hz, ?_⟩
      rwa [show k + (i + 1) = k + 1 + i by omega]

theorem byIndex_some {l : List α} {k : Nat} {x : α} (h : l[k]? = some x) : Api.byIndex l k = some x := by
  have hlt : k < l.length := by
    rcases Nat.lt_or_ge k l.length with h' | h'
    · exact h'
    · rw [List.getElem?_eq_none h'] at h; cases h
  unfold Api.byIndex
  rw [if_neg (by omega), if_neg (by omega)]
  simpa using h

theorem byIndex_none {l : List α} {k : Int} {n : Nat} (hl : l.length = n) (h : k < 0 ∨ k ≥ n) : Api.byIndex l k = none := by
  unfold Api.byIndex
  by_cases h0 : k < 0
  · rw [if_pos h0]
  · rw [if_neg h0, if_pos (by omega)]

theorem buildTy_ok {n : Nat} {t : Ty} (h : t.basic < n) : TyIs (buildTy n t) t := by
  simp [TyIs, buildTy, Rt.byId, h]

/-! ### One basic type -/

section one

variable {ds : List Decl} {cls : Nat} {d : Decl}

/-- In every runtime that holds `b` with the pool of `d` at `cls`. -/
def Holds (cls : Nat) (d : Decl) (P : Rt → Prop) : Prop :=
  ∀ (rt : Rt) (b : RBasic), rt.types[cls]? = some b → b.pool = d.pool.bytes → P rt

theorem buildClassVar_ok (hd : DeclOk n d) (i : Nat) (v : ClassVar) (hv : v ∈ d.classVars) :
    ∃ y, buildClassVar n cls d.pool i v = .ok y ∧ Holds cls d (fun rt => ClassVarIs rt y v) := by
  obtain ⟨hn, ht, hc⟩ := hd.classVars v hv
  have hm : v.name ∈ d.strings := by
    have : v.name ∈ d.classVars.map ClassVar.name := List.mem_map_of_mem hv
    simp only [Decl.strings, List.mem_append]; simp [this]
  obtain ⟨s, hs, hr⟩ := strPtr_ok cls d hm hn
  refine ⟨_, by simp only [buildClassVar, hs, Out.ok_bind]; rfl, ?_⟩
  intro rt b hb hp
  exact ⟨hr rt b hb hp, rfl, buildTy_ok ht, by simp [Rt.byId, hc]⟩

theorem buildField_ok (hd : DeclOk n d) (i : Nat) (v : Field) (hv : v ∈ d.fields) :
    ∃ y, buildField n cls d.pool i v = .ok y ∧ Holds cls d (fun rt => FieldIs rt y v) := by
  obtain ⟨hn, ht, hc⟩ := hd.fields v hv
  have hm : v.name ∈ d.strings := by
    have : v.name ∈ d.fields.map Field.name := List.mem_map_of_mem hv
    simp only [Decl.strings, List.mem_append]; simp [this]
  obtain ⟨s, hs, hr⟩ := strPtr_ok cls d hm hn
  refine ⟨_, by simp only [buildField, hs, Out.ok_bind]; rfl, ?_⟩
  intro rt b hb hp
  exact ⟨hr rt b hb hp, rfl, rfl, buildTy_ok ht, by simp [Rt.byId, hc]⟩

theorem buildArg_ok (hd : DeclOk n d) {m : Method} (hm : m ∈ d.methods) (mi i : Nat) (a : Arg) (ha : a ∈ m.args) :
    ∃ y, buildArg n cls d.pool mi i a = .ok y ∧ Holds cls d (fun rt => ArgIs rt cls mi i y a) := by
  obtain ⟨hn, ht⟩ := (hd.methods m hm).2.2.2 a ha
  have hs' : a.name ∈ d.strings := by
    have : a.name ∈ d.methods.flatMap (fun m => m.args.map Arg.name) :=
      List.mem_flatMap.2 ⟨m, hm, List.mem_map_of_mem ha⟩
    simp only [Decl.strings, List.mem_append]; simp only [this, true_or]
  obtain ⟨s, hs, hr⟩ := strPtr_ok cls d hs' hn
  refine ⟨_, by simp only [buildArg, hs, Out.ok_bind]; rfl, ?_⟩
  intro rt b hb hp
  exact ⟨hr rt b hb hp, rfl, buildTy_ok ht, rfl, rfl, rfl, rfl⟩

theorem buildMethod_ok (hd : DeclOk n d) (i : Nat) (m : Method) (hm : m ∈ d.methods) :
    ∃ y, buildMethod n cls d.pool i m = .ok y ∧ Holds cls d (fun rt => MethodIs rt cls i y m) := by
  obtain ⟨hn, ht, hc, _⟩ := hd.methods m hm
  have hs' : m.name ∈ d.strings := by
    have : m.name ∈ d.methods.map Method.name := List.mem_map_of_mem hm
    simp only [Decl.strings, List.mem_append]; simp [this]
  obtain ⟨s, hs, hr⟩ := strPtr_ok cls d hs' hn
  obtain ⟨as, has, hal, hag⟩ := fillFrom_ok (f := buildArg n cls d.pool i)
    (R := fun j a y => Holds cls d (fun rt => ArgIs rt cls i j y a)) m.args 0
    (fun j a ha => buildArg_ok hd hm i j a ha)
  refine ⟨_, by simp only [buildMethod, hs, has, Out.ok_bind]; rfl, ?_⟩
  intro rt b hb hp
  refine ⟨hr rt b hb hp, rfl, by simp [Rt.byId, hc], buildTy_ok ht, ⟨rfl, rfl, rfl, rfl⟩, ⟨rfl, rfl, rfl⟩, ⟨rfl, rfl⟩, hal,
    rfl, ?_, fun j hj => byIndex_none hal hj⟩
  intro j a ha
  obtain ⟨y, hy, hR⟩ := hag j a ha
  refine ⟨y, byIndex_some hy, ?_⟩
  have := hR rt b hb hp
  simpa using this

theorem findId_ok (hl : ListOk ds) {q : Nat} {pd : Decl} (h : ds[q]? = some pd) : findId ds pd.name = some q := by
  unfold findId
  cases hf : ds.find? (fun d => decide (d.name = pd.name)) with
  | none =>
    have := List.find?_eq_none.1 hf pd (List.mem_of_getElem? h)
    simp at this
  | some e =>
    have he := List.mem_of_find?_eq_some hf
    have hn : e.name = pd.name := by simpa using List.find?_some hf
    obtain ⟨j, hj⟩ := List.getElem?_of_mem he
    have hjq := hl.names j q e pd hj h hn
    subst hjq
    simp [hl.ids _ _ hj]

theorem buildParent_ok (hl : ListOk ds) (hd : DeclOk ds.length d) : buildParent ds d.parent = .ok d.parent := by
  cases hp : d.parent with
  | none => rfl
  | some q =>
    have hq := hd.parent q hp
    have hg : ds[q]? = some ds[q] := List.getElem?_eq_getElem hq
    simp only [buildParent, hg, findId_ok hl hg]
    simp [Rt.byId, hq]

theorem buildOne_ok (hl : ListOk ds) (hg : ds[cls]? = some d) (types : List RBasic) :
    ∃ b, buildOne ds types cls d = .ok b ∧ b.destroy = buildDestroy types cls b.methods d.destroy ∧
      ∀ rt : Rt, rt.types[cls]? = some b → DescribedBy rt cls b d := by
  have hd : DeclOk ds.length d := hl.decls d (List.mem_of_getElem? hg)
  obtain ⟨cvs, hcv, hcvl, hcvg⟩ := fillFrom_ok (f := buildClassVar ds.length cls d.pool)
    (R := fun _ v y => Holds cls d (fun rt => ClassVarIs rt y v)) d.classVars 0
    (fun j a ha => buildClassVar_ok hd j a ha)
  obtain ⟨fs, hfs, hfl, hfg⟩ := fillFrom_ok (f := buildField ds.length cls d.pool)
    (R := fun _ v y => Holds cls d (fun rt => FieldIs rt y v)) d.fields 0
    (fun j a ha => buildField_ok hd j a ha)
  obtain ⟨ms, hms, hml, hmg⟩ := fillFrom_ok (f := buildMethod ds.length cls d.pool)
    (R := fun k v y => Holds cls d (fun rt => MethodIs rt cls k y v)) d.methods 0
    (fun j a ha => buildMethod_ok hd j a ha)
  obtain ⟨nm, hnm, hnr⟩ := strPtr_ok cls d (v := d.name) (by simp [Decl.strings]) hd.name
  obtain ⟨fi, hfi, hfr⟩ := optPtr_ok cls d d.file (fun v hv => ⟨by simp [Decl.strings, hv], hd.file v hv⟩)
  obtain ⟨di, hdi, hdr⟩ := optPtr_ok cls d d.classDir (fun v hv => ⟨by simp [Decl.strings, hv], hd.classDir v hv⟩)
  obtain ⟨re, hre, hrr⟩ := optPtr_ok cls d d.relFile (fun v hv => ⟨by simp [Decl.strings, hv], hd.relFile v hv⟩)
  obtain ⟨ve, hve, hvr⟩ := optPtr_ok cls d d.version (fun v hv => ⟨by simp [Decl.strings, hv], hd.version v hv⟩)
  have hmeth : ((if d.methods.length > 0 then some ms else none : Option (List RMethod)).getD []) = ms := by
    split
    · rfl
    · have : ms.length = 0 := by omega
      simp [List.length_eq_zero_iff.1 this]
  refine ⟨_, by simp only [buildOne, hcv, hfs, hms, hnm, hfi, hdi, hre, hve, buildParent_ok hl hd, Out.ok_bind]; rfl, rfl, ?_⟩
  intro rt hb
  refine ⟨?_, rfl, rfl, rfl, hfr rt _ hb rfl, hdr rt _ hb rfl, hrr rt _ hb rfl, hvr rt _ hb rfl, ⟨rfl, rfl, rfl⟩, hcvl, ?_,
    fun k hk => byIndex_none hcvl hk, hfl, ?_, fun k hk => byIndex_none hfl hk, ?_, ?_, ?_, ?_, ?_, ?_⟩
  · simp [Api.optCstr, hnr rt _ hb rfl]
  · intro k v hv
    obtain ⟨y, hy, hR⟩ := hcvg k v hv
    exact ⟨y, byIndex_some hy, hR rt _ hb rfl⟩
  · intro k v hv
    obtain ⟨y, hy, hR⟩ := hfg k v hv
    exact ⟨y, byIndex_some hy, hR rt _ hb rfl⟩
  · show (Option.getD _ []).length = _
    rw [hmeth, hml]
  · intro k m hm
    obtain ⟨y, hy, hR⟩ := hmg k m hm
    refine ⟨y, ?_, ?_⟩
    · unfold Api.methodByIndex
      show Api.byIndex (Option.getD _ []) _ = _
      rw [hmeth]; exact byIndex_some hy
    · have := hR rt _ hb rfl
      simpa using this
  · intro k hk
    unfold Api.methodByIndex
    show Api.byIndex (Option.getD _ []) _ = _
    rw [hmeth]; exact byIndex_none hml hk
  · show d.anons.map (Rt.byId ds.length) = _
    apply List.map_congr_left
    intro q hq
    simp [Rt.byId, hd.anons q hq]
  · show (match d.init with | none => _ | some j => _) = _
    cases hi : d.init with
    | none => rfl
    | some j =>
      have := hd.init j hi
      simp only
      rw [if_pos (by omega)]; rfl
  · intro v hv
    exact constantString_ok d _ rfl rfl hv

end one

end SPVM.Reflect
