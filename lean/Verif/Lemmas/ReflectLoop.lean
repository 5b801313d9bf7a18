import Verif.Lemmas.Reflect

namespace SPVM.Reflect

/-- The array of methods of a basic type of the runtime. -/
def methodsAt (types : List RBasic) (o : Nat) : Option (List RMethod) := (types[o]?).bind RBasic.methods

/-- The value of the destructor pointer of basic type `i`, in terms of the finished runtime. -/
def DestroyIs (types : List RBasic) (i : Nat) (b : RBasic) (d : Decl) : Prop :=
  match d.destroy with
  | none => b.destroy = .null
  | some (o, j) => b.destroy = if o ≤ i then addr (methodsAt types o) o j else addr none o j

theorem getElem?_lt {l : List α} {i : Nat} {x : α} (h : l[i]? = some x) : i < l.length := by
  rcases Nat.lt_or_ge i l.length with h' | h'
  · exact h'
  · rw [List.getElem?_eq_none h'] at h; cases h

theorem drop_cons {l : List α} {k : Nat} {x : α} {xs : List α} (h : l.drop k = x :: xs) :
    l[k]? = some x ∧ l.drop (k + 1) = xs := by
  constructor
  · have : (l.drop k)[0]? = some x := by rw [h]; rfl
    simpa using this
  · rw [← List.drop_drop, h]; rfl

theorem loop_ok {ds : List Decl} (hl : ListOk ds) : ∀ (rest : List Decl) (cls : Nat) (rt : Rt), ds.drop cls = rest →
    rt.types.length = ds.length → (∀ i, cls ≤ i → methodsAt rt.types i = none) →
    ∃ rt', buildLoop ds cls rt rest = .ok rt' ∧ rt'.types.length = ds.length ∧
      (∀ i, i < cls → rt'.types[i]? = rt.types[i]?) ∧
      (∀ (i : Nat) (d : Decl), cls ≤ i → ds[i]? = some d → ∃ b, rt'.types[i]? = some b ∧ DestroyIs rt'.types i b d ∧
        (∀ r : Rt, r.types[i]? = some b → DescribedBy r i b d)) ∧
      (∀ (i : Nat) (d : Decl), cls ≤ i → ds[i]? = some d → rt'.tbl.lookup d.name = some i) ∧
      (∀ name, (∀ (i : Nat) (d : Decl), cls ≤ i → ds[i]? = some d → d.name ≠ name) →
        rt'.tbl.lookup name = rt.tbl.lookup name) := by
  intro rest
  induction rest with
  | nil =>
    intro cls rt hdrop hlen _
    have hge : ds.length ≤ cls := List.drop_eq_nil_iff.1 hdrop
    refine ⟨rt, rfl, hlen, fun _ _ => rfl, ?_, ?_, fun _ _ => rfl⟩
    · intro i d hi hd; have := getElem?_lt hd; omega
    · intro i d hi hd; have := getElem?_lt hd; omega
  | cons d rest ih =>
    intro cls rt hdrop hlen hnone
    obtain ⟨hg, hdrop'⟩ := drop_cons hdrop
    have hclt := getElem?_lt hg
    obtain ⟨b, hb, hdes, hdesc⟩ := buildOne_ok hl hg rt.types
    obtain ⟨rt', hrun, hlen', hold, hnew, htbl, htbl'⟩ := ih (cls + 1)
      { types := rt.types.set cls b, tbl := (d.name, cls) :: rt.tbl } hdrop' (by simp [hlen]) (by
        intro i hi
        have := hnone i (by omega)
        unfold methodsAt at this ⊢
        simp only [List.getElem?_set]
        rw [if_neg (by omega)]; exact this)
    have hcls : rt'.types[cls]? = some b := by
      rw [hold cls (by omega)]
      simp [List.getElem?_set, hlen, hclt]
    refine ⟨rt', by simp only [buildLoop, hb, Out.ok_bind]; exact hrun, hlen', ?_, ?_, ?_, ?_⟩
    · intro i hi
      rw [hold i (by omega)]
      simp only [List.getElem?_set]
      rw [if_neg (by omega)]
    · intro i e hi he
      rcases Nat.lt_or_ge cls i with h | h
      · exact hnew i e (by omega) he
      · have : i = cls := by omega
        subst this
        rw [hg] at he
        cases he
        refine ⟨b, hcls, ?_, hdesc⟩
        unfold DestroyIs
        rw [hdes]
        cases hdd : d.destroy with
        | none => rfl
        | some oj =>
          obtain ⟨o, j⟩ := oj
          show (if o = i then _ else _) = _
          by_cases ho : o = i
          · subst ho
            rw [if_pos rfl, if_pos (Nat.le_refl o)]
            simp [methodsAt, hcls]
          · rw [if_neg ho]
            by_cases hlt : o ≤ i
            · rw [if_pos hlt]
              have h1 := hold o (by omega)
              simp only [List.getElem?_set] at h1
              rw [if_neg (by omega)] at h1
              simp [methodsAt, h1]
            · rw [if_neg hlt]
              have := hnone o (by omega)
              unfold methodsAt at this
              rw [this]
    · intro i e hi he
      rcases Nat.lt_or_ge cls i with h | h
      · exact htbl i e (by omega) he
      · have : i = cls := by omega
        subst this
        rw [hg] at he
        cases he
        rw [htbl' d.name]
        · simp [List.lookup]
        · intro k e' hk he' hne
          have := hl.names k i e' d he' hg hne
          omega
    · intro name hname
      rw [htbl' name (fun k e hk he => hname k e (by omega) he)]
      have hne : d.name ≠ name := hname cls d (Nat.le_refl _) hg
      have : (name == d.name) = false := by simpa using fun e => hne e.symm
      simp [List.lookup, this]

theorem cstr_mono {rt rt' : Rt} (h : ∀ i, i < rt.types.length → rt'.types[i]? = rt.types[i]?) {s : SPtr} {v : Bytes}
    (hs : Api.cstr rt s = .ok v) : Api.cstr rt' s = .ok v := by
  unfold Api.cstr at hs ⊢
  cases hg : rt.types[s.1]? with
  | none => rw [hg] at hs; cases hs
  | some b =>
    rw [h _ (getElem?_lt hg), hg]
    rw [hg] at hs
    exact hs

theorem optCstr_mono {rt rt' : Rt} (h : ∀ i, i < rt.types.length → rt'.types[i]? = rt.types[i]?) {s : Option SPtr}
    {v : Option Bytes} (hs : Api.optCstr rt s = .ok v) : Api.optCstr rt' s = .ok v := by
  cases s with
  | none => exact hs
  | some p =>
    cases hc : Api.cstr rt p with
    | ok w =>
      simp only [Api.optCstr, hc, Out.ok_bind] at hs
      simp only [Api.optCstr, cstr_mono h hc, Out.ok_bind]
      exact hs
    | die m => simp [Api.optCstr, hc] at hs
    | ub => simp [Api.optCstr, hc] at hs

theorem DescribedBy.mono {rt rt' : Rt} (h : ∀ i, i < rt.types.length → rt'.types[i]? = rt.types[i]?) {i : Nat} {b : RBasic}
    {d : Decl} (hd : DescribedBy rt i b d) : DescribedBy rt' i b d where
  name := optCstr_mono h hd.name
  id := hd.id
  category := hd.category
  parent := hd.parent
  file := optCstr_mono h hd.file
  classDir := optCstr_mono h hd.classDir
  relFile := optCstr_mono h hd.relFile
  version := optCstr_mono h hd.version
  flags := hd.flags
  classVarsLength := hd.classVarsLength
  classVar := by
    intro k v hv
    obtain ⟨r, h1, h2⟩ := hd.classVar k v hv
    exact ⟨r, h1, cstr_mono h h2.1, h2.2⟩
  noClassVar := hd.noClassVar
  fieldsLength := hd.fieldsLength
  field := by
    intro k v hv
    obtain ⟨r, h1, h2⟩ := hd.field k v hv
    exact ⟨r, h1, cstr_mono h h2.1, h2.2⟩
  noField := hd.noField
  methodsLength := hd.methodsLength
  method := by
    intro k m hm
    obtain ⟨r, h1, h2⟩ := hd.method k m hm
    refine ⟨r, h1, { h2 with name := cstr_mono h h2.name, arg := ?_ }⟩
    intro j a ha
    obtain ⟨ra, h3, h4⟩ := h2.arg j a ha
    exact ⟨ra, h3, cstr_mono h h4.1, h4.2⟩
  noMethod := hd.noMethod
  anons := hd.anons
  init := hd.init
  strings := hd.strings

theorem basicTypeById_some {rt : Rt} {i : Nat} {b : RBasic} (h : rt.types[i]? = some b) : Api.basicTypeById rt i = some b := by
  have := getElem?_lt h
  unfold Api.basicTypeById
  rw [if_neg (by omega), if_neg (by omega)]
  simpa using h

theorem basicTypeById_get {rt : Rt} {i : Nat} {b : RBasic} (h : Api.basicTypeById rt i = some b) : rt.types[i]? = some b := by
  unfold Api.basicTypeById at h
  rw [if_neg (by omega)] at h
  split at h
  · cases h
  · simpa using h

theorem methodsAt_append_none {types : List RBasic} {k i : Nat} (h : types.length ≤ i) :
    methodsAt (types ++ List.replicate k ({} : RBasic)) i = none := by
  unfold methodsAt
  rw [List.getElem?_append_right h]
  rw [List.getElem?_replicate]
  split <;> rfl

theorem build_ok {ds : List Decl} (hl : ListOk ds) {rt : Rt} (hlen : rt.types.length ≤ ds.length) :
    ∃ rt', buildRuntime ds rt = .ok rt' ∧ rt'.types.length = ds.length ∧
      (∀ i, i < rt.types.length → rt'.types[i]? = rt.types[i]?) ∧
      (∀ (i : Nat) (d : Decl), rt.types.length ≤ i → ds[i]? = some d → ∃ b, rt'.types[i]? = some b ∧
        DestroyIs rt'.types i b d ∧ DescribedBy rt' i b d) ∧
      (∀ (i : Nat) (d : Decl), rt.types.length ≤ i → ds[i]? = some d → rt'.tbl.lookup d.name = some i) ∧
      (∀ name, (∀ (i : Nat) (d : Decl), rt.types.length ≤ i → ds[i]? = some d → d.name ≠ name) →
        rt'.tbl.lookup name = rt.tbl.lookup name) := by
  obtain ⟨rt', h1, h2, h3, h4, h5, h6⟩ := loop_ok hl (ds.drop rt.types.length) rt.types.length
    { rt with types := rt.types ++ List.replicate (ds.length - rt.types.length) {} } rfl (by simp; omega)
    (fun i hi => methodsAt_append_none hi)
  refine ⟨rt', h1, h2, ?_, ?_, h5, h6⟩
  · intro i hi
    rw [h3 i hi]
    exact List.getElem?_append_left hi
  · intro i d hi hd
    obtain ⟨b, hb, hdes, hdesc⟩ := h4 i d hi hd
    exact ⟨b, hb, hdes, hdesc rt' hb⟩

/-- What every compilation keeps. -/
structure Inv (ds : List Decl) (rt : Rt) : Prop where
  len : rt.types.length = ds.length
  desc : ∀ (i : Nat) (d : Decl), ds[i]? = some d → ∃ b, rt.types[i]? = some b ∧ rt.tbl.lookup d.name = some i ∧
    DescribedBy rt i b d ∧ DestroyIs rt.types i b d
  other : ∀ name, (∀ d ∈ ds, d.name ≠ name) → rt.tbl.lookup name = none

theorem inv_build {ds new : List Decl} {rt : Rt} (h : Inv ds rt) (hl : ListOk (ds ++ new)) :
    ∃ rt', buildRuntime (ds ++ new) rt = .ok rt' ∧ Inv (ds ++ new) rt' ∧
      ∀ i, i < rt.types.length → rt'.types[i]? = rt.types[i]? := by
  have hlen := h.len
  obtain ⟨rt', h1, h2, h3, h4, h5, h6⟩ := build_ok hl (rt := rt) (by simp [hlen])
  refine ⟨rt', h1, ⟨h2, ?_, ?_⟩, h3⟩
  · intro i d hd
    rcases Nat.lt_or_ge i rt.types.length with hi | hi
    · have hd' : ds[i]? = some d := by rwa [List.getElem?_append_left (by omega)] at hd
      obtain ⟨b, hb, hn, hdesc, hdes⟩ := h.desc i d hd'
      refine ⟨b, by rw [h3 i hi, hb], ?_, hdesc.mono h3, ?_⟩
      · rw [h6 d.name (by
          intro k e hk he hne
          have := hl.names k i e d he hd hne
          omega)]
        exact hn
      · unfold DestroyIs at hdes ⊢
        cases hdd : d.destroy with
        | none => rw [hdd] at hdes; exact hdes
        | some oj =>
          rw [hdd] at hdes
          obtain ⟨o, j⟩ := oj
          simp only at hdes ⊢
          rw [hdes]
          by_cases ho : o ≤ i
          · rw [if_pos ho, if_pos ho]
            simp [methodsAt, h3 o (by omega)]
          · rw [if_neg ho, if_neg ho]
    · obtain ⟨b, hb, hdes, hdesc⟩ := h4 i d hi hd
      exact ⟨b, hb, h5 i d hi hd, hdesc, hdes⟩
  · intro name hname
    rw [h6 name (fun k e _ he => hname e (List.mem_of_getElem? he))]
    exact h.other name (fun e he => hname e (List.mem_append_left _ he))

theorem inv_of_compiled {ds : List Decl} {rt : Rt} (h : Compiled ds rt) : Inv ds rt := by
  induction h with
  | start => exact ⟨rfl, fun i d hd => by simp at hd, fun _ _ => rfl⟩
  | compile _ hl hb ih =>
    obtain ⟨rt'', h1, h2, _⟩ := inv_build ih hl
    rw [hb] at h1
    cases h1
    exact h2

theorem methodsAt_some {ds : List Decl} {rt : Rt} (h : Inv ds rt) {o : Nat} {d : Decl} (hd : ds[o]? = some d)
    (hm : 0 < d.methods.length) : ∃ ms, methodsAt rt.types o = some ms := by
  obtain ⟨b, hb, _, hdesc, _⟩ := h.desc o d hd
  have := hdesc.methodsLength
  cases hbm : b.methods with
  | none => rw [hbm] at this; simp at this; omega
  | some ms => exact ⟨ms, by simp [methodsAt, hb, hbm]⟩

theorem byName_ok {rt : Rt} {nameOf : α → SPtr} {name : Bytes} : ∀ {l : List α} {names : List Bytes},
    l.length = names.length → (∀ (k : Nat) (x : α) (v : Bytes), l[k]? = some x → names[k]? = some v →
      Api.cstr rt (nameOf x) = .ok v) →
    Api.byName rt nameOf name l = .ok ((names.idxOf? name).bind (fun k => l[k]?)) := by
  intro l
  induction l with
  | nil =>
    intro names hl _
    have : names = [] := List.length_eq_zero_iff.1 (by simpa using hl.symm)
    subst this
    rfl
  | cons x xs ih =>
    intro names hl h
    cases names with
    | nil => simp at hl
    | cons v vs =>
      have hx := h 0 x v rfl rfl
      have hrec := ih (names := vs) (by simpa using hl) (fun k y w hy hw => h (k + 1) y w (by simpa using hy) (by simpa using hw))
      simp only [Api.byName, hx, Out.ok_bind]
      by_cases hv : v = name
      · subst hv
        simp [List.idxOf?_cons]
      · rw [if_neg hv, hrec]
        have : (v == name) = false := by simpa using hv
        simp only [List.idxOf?_cons, this]
        cases List.idxOf? name vs <;> simp

end SPVM.Reflect
