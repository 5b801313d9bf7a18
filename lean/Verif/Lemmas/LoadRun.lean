import Verif.Lemmas.LoadName
/-! One source: what the reductions do to the state of a compilation. -/
namespace SPVM
namespace Load
open VM (Bytes)
open Spec.Load (Occurs NameOk Mentions Setting Needed Loaded Defines WellFormed Refers Loadable Resolved Safe)

/-- The symbol table and the list of basic types agree. -/
def Cons (types : List Entry) (sym : Bytes → Option Nat) : Prop :=
  ∀ n i, sym n = some i ↔ ∃ e, types[i]? = some e ∧ e.name = n

theorem Cons.isSome {types sym} (h : Cons types sym) (n : Bytes) : (sym n).isSome = true ↔ ∃ e ∈ types, e.name = n := by
  rw [Option.isSome_iff_exists]
  constructor
  · rintro ⟨i, hi⟩
    obtain ⟨e, he, hn⟩ := (h n i).1 hi
    exact ⟨e, List.mem_of_getElem? he, hn⟩
  · rintro ⟨e, he, hn⟩
    obtain ⟨i, hi⟩ := List.getElem?_of_mem he
    exact ⟨i, (h n i).2 ⟨e, hi, hn⟩⟩

theorem Cons.none {types sym} (h : Cons types sym) (n : Bytes) : sym n = none ↔ ∀ e ∈ types, e.name ≠ n := by
  have := h.isSome n
  rw [← Option.not_isSome_iff_eq_none, this]
  simp

/-- `es` are added. -/
structure Grow (r r' : Run) (es : Entry → Prop) : Prop where
  files : r'.files = r.files
  missing : r'.missing = r.missing
  cons : Cons r.types r.sym → Cons r'.types r'.sym
  add : ∃ a, r'.types = r.types ++ a ∧ ∀ e ∈ a, es e
  has : ∀ n, (r'.sym n).isSome = true ↔ (r.sym n).isSome = true ∨ ∃ e, es e ∧ e.name = n

theorem Grow.refl (r : Run) : Grow r r (fun _ => False) :=
  ⟨rfl, rfl, id, ⟨[], by simp, by simp⟩, by simp⟩

theorem Grow.trans {r r1 r2 : Run} {P Q R : Entry → Prop} (h1 : Grow r r1 P) (h2 : Grow r1 r2 Q) (hR : ∀ e, R e ↔ P e ∨ Q e) :
    Grow r r2 R := by
  refine ⟨h2.files.trans h1.files, h2.missing.trans h1.missing, fun h => h2.cons (h1.cons h), ?_, ?_⟩
  · obtain ⟨a, ha, hP⟩ := h1.add
    obtain ⟨b, hb, hQ⟩ := h2.add
    refine ⟨a ++ b, by rw [hb, ha, List.append_assoc], ?_⟩
    intro e he
    rcases List.mem_append.1 he with h | h
    · exact (hR e).2 (.inl (hP e h))
    · exact (hR e).2 (.inr (hQ e h))
  · intro n
    rw [h2.has, h1.has]
    constructor
    · rintro ((h | ⟨e, he, hn⟩) | ⟨e, he, hn⟩)
      · exact .inl h
      · exact .inr ⟨e, (hR e).2 (.inl he), hn⟩
      · exact .inr ⟨e, (hR e).2 (.inr he), hn⟩
    · rintro (h | ⟨e, he, hn⟩)
      · exact .inl (.inl h)
      · rcases (hR e).1 he with h | h
        · exact .inl (.inr ⟨e, h, hn⟩)
        · exact .inr ⟨e, h, hn⟩

theorem addType_old (r : Run) (e : Entry) (h : (r.sym e.name).isSome = true) : addType r e = r := by
  unfold addType
  cases hs : r.sym e.name with
  | none => rw [hs] at h; cases h
  | some i => rfl

theorem addType_new (r : Run) (e : Entry) (h : r.sym e.name = none) :
    addType r e = { r with types := r.types ++ [e], sym := fun x => if x = e.name then some r.types.length else r.sym x } := by
  unfold addType
  rw [h]

theorem addType_cons (r : Run) (e : Entry) (hc : Cons r.types r.sym) : Cons (addType r e).types (addType r e).sym := by
  cases hs : r.sym e.name with
  | some i => rw [addType_old r e (by rw [hs]; rfl)]; exact hc
  | none =>
    rw [addType_new r e hs]
    intro n i
    show (if n = e.name then some r.types.length else r.sym n) = some i ↔ ∃ e', (r.types ++ [e])[i]? = some e' ∧ e'.name = n
    by_cases hn : n = e.name
    · subst hn
      rw [if_pos rfl]
      constructor
      · intro h
        cases h
        exact ⟨e, by simp, rfl⟩
      · rintro ⟨e', he, hn⟩
        rw [List.getElem?_append] at he
        split at he
        · exact absurd hn (((hc.none e.name).1 hs) e' (List.mem_of_getElem? he))
        · rename_i hlt
          have : i - r.types.length < [e].length := by
            rw [List.getElem?_eq_some_iff] at he
            exact he.1
          simp only [List.length_singleton] at this
          congr 1
          omega
    · rw [if_neg hn, hc n i]
      constructor
      · rintro ⟨e', he, h⟩
        exact ⟨e', by rw [List.getElem?_append_left (List.getElem?_eq_some_iff.1 he).1]; exact he, h⟩
      · rintro ⟨e', he, h⟩
        rw [List.getElem?_append] at he
        split at he
        · exact ⟨e', he, h⟩
        · have hm := List.mem_of_getElem? he
          simp only [List.mem_singleton] at hm
          subst hm
          exact absurd h.symm hn

theorem addType_grow (r : Run) (e : Entry) : Grow r (addType r e) (fun x => x = e) := by
  refine ⟨?_, ?_, addType_cons r e, ?_, ?_⟩
  · unfold addType; split <;> rfl
  · unfold addType; split <;> rfl
  · cases hs : r.sym e.name with
    | some i => exact ⟨[], by rw [addType_old r e (by rw [hs]; rfl)]; simp, by simp⟩
    | none => exact ⟨[e], by rw [addType_new r e hs], by simp⟩
  · intro n
    cases hs : r.sym e.name with
    | some i =>
      rw [addType_old r e (by rw [hs]; rfl)]
      constructor
      · exact .inl
      · rintro (h | ⟨_, rfl, rfl⟩)
        · exact h
        · rw [hs]; rfl
    | none =>
      rw [addType_new r e hs]
      show (if n = e.name then some r.types.length else r.sym n).isSome = true ↔ _
      by_cases hn : n = e.name
      · rw [if_pos hn]; simp [hn]
      · rw [if_neg hn]
        constructor
        · exact .inl
        · rintro (h | ⟨_, rfl, rfl⟩)
          · exact h
          · exact absurd rfl hn

theorem addType_queue (r : Run) (e : Entry) : (addType r e).queue = r.queue := by unfold addType; split <;> rfl
theorem addType_refs (r : Run) (e : Entry) : (addType r e).refs = r.refs := by unfold addType; split <;> rfl
theorem addType_errs (r : Run) (e : Entry) : (addType r e).errs = r.errs := by unfold addType; split <;> rfl

/-- A run that differs only in what is not part of `Grow`. -/
theorem Grow.congr {r r' r2 r2' : Run} {P} (h : Grow r r' P) (e1 : r2.types = r.types) (e2 : r2.sym = r.sym) (e3 : r2.files = r.files)
    (e4 : r2.missing = r.missing) (f1 : r2'.types = r'.types) (f2 : r2'.sym = r'.sym) (f3 : r2'.files = r'.files)
    (f4 : r2'.missing = r'.missing) : Grow r2 r2' P := by
  refine ⟨by rw [f3, e3]; exact h.files, by rw [f4, e4]; exact h.missing, ?_, ?_, ?_⟩
  · rw [e1, e2, f1, f2]; exact h.cons
  · rw [e1, f1]; exact h.add
  · rw [e2, f2]; exact h.has

/-- Does the name make an anon class? -/
def anonCls (o : Bytes) : Bool := strstr anonClassMark o

/-- An entry is that of an anon method of the items. -/
def IsAnon (o : Bytes) (is : List Item) (e : Entry) : Prop :=
  anonCls o = false ∧ e.src = none ∧ ∃ l c, .anon l c ∈ is ∧ e.name = anonName o l c

theorem anonName_mark (o : Bytes) (l c : Nat) : Occurs anonMethodMark (anonName o l c) :=
  ⟨o, digits l ++ colons ++ digits c, by simp [anonName, List.append_assoc]⟩

/-- What one item does. -/
structure DidItem (o : Bytes) (i : Item) (r r' : Run) : Prop where
  grow : Grow r r' (IsAnon o [i])
  queue : ∀ p, p ∈ r'.queue ↔ p ∈ r.queue ∨ i = .use p.1 p.2
  short : r'.queue.length ≤ r.queue.length + 1
  refs : ∀ t, t ∈ r'.refs ↔ t ∈ r.refs ∨ (∃ q, i = .use t q) ∨ (anonCls o = false ∧ ∃ l c, i = .anon l c ∧ t = anonName o l c)
  errs : r'.errs = true ↔ r.errs = true ∨ i = .err ∨ (anonCls o = true ∧ ∃ l c, i = .anon l c)

theorem item_spec (o : Bytes) (i : Item) (r r' : Run) (h : item (some o) r i = .ok r') : DidItem o i r r' := by
  cases i with
  | use n q =>
    simp only [item, Out.ok.injEq] at h
    subst h
    refine ⟨?_, ?_, ?_, ?_, ?_⟩
    · refine ⟨rfl, rfl, id, ⟨[], by simp [pushUse], by simp⟩, ?_⟩
      intro n
      simp [pushUse, IsAnon]
    · intro p
      simp only [pushUse, List.mem_append, List.mem_singleton, Item.use.injEq]
      constructor
      · rintro (h | rfl)
        · exact .inl h
        · exact .inr ⟨rfl, rfl⟩
      · rintro (h | ⟨h1, h2⟩)
        · exact .inl h
        · exact .inr (by cases p; simp_all)
    · simp [pushUse]
    · intro t
      simp only [pushUse, List.mem_append, List.mem_singleton, Item.use.injEq, reduceCtorEq, false_and, exists_false, and_false,
        or_false]
      constructor
      · rintro (h | rfl)
        · exact .inl h
        · exact .inr ⟨q, rfl, rfl⟩
      · rintro (h | ⟨_, rfl, _⟩)
        · exact .inl h
        · exact .inr rfl
    · simp [pushUse]
  | err =>
    simp only [item, Out.ok.injEq] at h
    subst h
    refine ⟨⟨rfl, rfl, id, ⟨[], by simp [Run.error], by simp⟩, by simp [Run.error, IsAnon]⟩, ?_, ?_, ?_, ?_⟩ <;> simp [Run.error]
  | anon l c =>
    simp only [item] at h
    split at h
    · rename_i hlen
      simp only [buildClass, Out.pure_eq, Out.ok_bind] at h
      cases ha : strstr anonClassMark o with
      | true =>
        rw [ha] at h
        simp only [if_true, Out.ok.injEq] at h
        subst h
        have ha' : anonCls o = true := ha
        refine ⟨⟨rfl, rfl, id, ⟨[], by simp [Run.error], by simp⟩, by simp [Run.error, IsAnon, ha']⟩, ?_, ?_, ?_, ?_⟩ <;>
          simp [Run.error, ha']
      | false =>
        rw [ha] at h
        have ha' : anonCls o = false := ha
        have hm : strstr anonMethodMark (anonName o l c) = true := (strstr_iff _ _).2 (anonName_mark o l c)
        simp only [hm, pushParent, Bool.true_or, if_true, Out.ok.injEq, Bool.false_eq_true, if_false] at h
        subst h
        refine ⟨?_, ?_, ?_, ?_, ?_⟩
        · refine Grow.trans (r1 := { r with refs := r.refs ++ [anonName o l c] })
            (Grow.congr (Grow.refl r) rfl rfl rfl rfl rfl rfl rfl rfl) (addType_grow _ _) ?_
          intro e
          obtain ⟨en, es⟩ := e
          constructor
          · rintro ⟨_, hs, l', c', hm, hn⟩
            cases List.mem_singleton.1 hm
            simp only at hs hn
            subst hs hn
            exact .inr rfl
          · rintro (h | h)
            · cases h
            · cases h
              exact ⟨ha', rfl, l, c, by simp, rfl⟩
        · intro p; rw [addType_queue]; simp
        · rw [addType_queue]; simp
        · intro t; rw [addType_refs]; simp [ha']
          constructor
          · rintro (h | h)
            · exact .inl h
            · exact .inr ⟨l, c, ⟨rfl, rfl⟩, h⟩
          · rintro (h | ⟨_, _, ⟨rfl, rfl⟩, h⟩)
            · exact .inl h
            · exact .inr h
        · rw [addType_errs]; simp [ha']
    · cases h

/-- What the items do. -/
structure DidItems (o : Bytes) (is : List Item) (r r' : Run) : Prop where
  grow : Grow r r' (IsAnon o is)
  queue : ∀ p, p ∈ r'.queue ↔ p ∈ r.queue ∨ .use p.1 p.2 ∈ is
  short : r'.queue.length ≤ r.queue.length + is.length
  refs : ∀ t, t ∈ r'.refs ↔ t ∈ r.refs ∨ (∃ q, .use t q ∈ is) ∨ (anonCls o = false ∧ ∃ l c, .anon l c ∈ is ∧ t = anonName o l c)
  errs : r'.errs = true ↔ r.errs = true ∨ .err ∈ is ∨ (anonCls o = true ∧ ∃ l c, .anon l c ∈ is)

theorem items_spec (o : Bytes) (is : List Item) : ∀ (r r' : Run), items (some o) r is = .ok r' → DidItems o is r r' := by
  induction is with
  | nil =>
    intro r r' h
    simp only [items, Out.ok.injEq] at h
    subst h
    refine ⟨Grow.trans (Grow.refl r) (Grow.refl r) ?_, ?_, ?_, ?_, ?_⟩ <;> simp [IsAnon]
  | cons i is ih =>
    intro r r' h
    simp only [items] at h
    cases h1 : item (some o) r i with
    | die m => rw [h1] at h; cases h
    | ub => rw [h1] at h; cases h
    | ok r1 =>
      rw [h1] at h
      simp only [Out.ok_bind] at h
      have d1 := item_spec o i r r1 h1
      have d2 := ih r1 r' h
      refine ⟨Grow.trans d1.grow d2.grow ?_, ?_, ?_, ?_, ?_⟩
      · intro e
        unfold IsAnon
        constructor
        · rintro ⟨a, b, l, c, h, n⟩
          rcases List.mem_cons.1 h with h | h
          · exact .inl ⟨a, b, l, c, by simp [h], n⟩
          · exact .inr ⟨a, b, l, c, h, n⟩
        · rintro (⟨a, b, l, c, h, n⟩ | ⟨a, b, l, c, h, n⟩)
          · exact ⟨a, b, l, c, by rw [List.mem_singleton.1 h]; simp, n⟩
          · exact ⟨a, b, l, c, List.mem_cons_of_mem _ h, n⟩
      · intro p
        rw [d2.queue, d1.queue, List.mem_cons, or_assoc, eq_comm]
      · have := d1.short
        have := d2.short
        simp only [List.length_cons]
        omega
      · intro t
        rw [d2.refs, d1.refs]
        constructor
        · rintro ((h | ⟨q, h⟩ | ⟨a, l, c, h, n⟩) | ⟨q, h⟩ | ⟨a, l, c, h, n⟩)
          · exact .inl h
          · exact .inr (.inl ⟨q, by simp [h]⟩)
          · exact .inr (.inr ⟨a, l, c, by simp [h], n⟩)
          · exact .inr (.inl ⟨q, by simp [h]⟩)
          · exact .inr (.inr ⟨a, l, c, by simp [h], n⟩)
        · rintro (h | ⟨q, h⟩ | ⟨a, l, c, h, n⟩)
          · exact .inl (.inl h)
          · rcases List.mem_cons.1 h with h | h
            · exact .inl (.inr (.inl ⟨q, h.symm⟩))
            · exact .inr (.inl ⟨q, h⟩)
          · rcases List.mem_cons.1 h with h | h
            · exact .inl (.inr (.inr ⟨a, l, c, h.symm, n⟩))
            · exact .inr (.inr ⟨a, l, c, h, n⟩)
      · rw [d2.errs, d1.errs]
        constructor
        · rintro ((h | h | ⟨a, l, c, h⟩) | h | ⟨a, l, c, h⟩)
          · exact .inl h
          · exact .inr (.inl (by simp [h]))
          · exact .inr (.inr ⟨a, l, c, by simp [h]⟩)
          · exact .inr (.inl (by simp [h]))
          · exact .inr (.inr ⟨a, l, c, by simp [h]⟩)
        · rintro (h | h | ⟨a, l, c, h⟩)
          · exact .inl (.inl h)
          · rcases List.mem_cons.1 h with h | h
            · exact .inl (.inr (.inl h.symm))
            · exact .inr (.inl h)
          · rcases List.mem_cons.1 h with h | h
            · exact .inl (.inr (.inr ⟨a, l, c, h.symm⟩))
            · exact .inr (.inr ⟨a, l, c, h⟩)

theorem digitsName_length (o : Bytes) (l c : Nat) :
    (anonName o l c).length = o.length + 15 + (digits l).length + 2 + (digits c).length := by
  simp [anonName, anonMethodMark, colons]; omega

theorem items_total (o : Bytes) (is : List Item)
    (hs : ∀ l c, .anon l c ∈ is → (digits l).length + (digits c).length ≤ 13) :
    ∀ r, ∃ r', items (some o) r is = .ok r' := by
  induction is with
  | nil => intro r; exact ⟨r, rfl⟩
  | cons i is ih =>
    intro r
    have ih := ih (fun l c h => hs l c (List.mem_cons_of_mem _ h))
    suffices h : ∃ r1, item (some o) r i = .ok r1 by
      obtain ⟨r1, h1⟩ := h
      obtain ⟨r2, h2⟩ := ih r1
      exact ⟨r2, by rw [items, h1]; exact h2⟩
    cases i with
    | use n q => exact ⟨_, rfl⟩
    | err => exact ⟨_, rfl⟩
    | anon l c =>
      have h13 := hs l c (by simp)
      simp only [item]
      rw [if_pos (by rw [digitsName_length]; omega)]
      simp only [buildClass, Out.pure_eq, Out.ok_bind]
      cases strstr anonClassMark o with
      | true => exact ⟨_, rfl⟩
      | false =>
        have hm : strstr anonMethodMark (anonName o l c) = true := (strstr_iff _ _).2 (anonName_mark o l c)
        simp only [hm, Bool.true_or, if_true, Bool.false_eq_true, if_false]
        exact ⟨_, rfl⟩

/-! ## Any outcome -/

/-- Types are only added, errors stay. -/
structure Ext (r r' : Run) : Prop where
  files : r'.files = r.files
  missing : r'.missing = r.missing
  cons : Cons r.types r.sym → Cons r'.types r'.sym
  add : ∃ a, r'.types = r.types ++ a
  errs : r.errs = true → r'.errs = true

theorem Ext.refl (r : Run) : Ext r r := ⟨rfl, rfl, id, ⟨[], by simp⟩, id⟩

theorem Ext.trans {r r1 r2 : Run} (h1 : Ext r r1) (h2 : Ext r1 r2) : Ext r r2 := by
  refine ⟨h2.files.trans h1.files, h2.missing.trans h1.missing, fun h => h2.cons (h1.cons h), ?_, fun h => h2.errs (h1.errs h)⟩
  obtain ⟨a, ha⟩ := h1.add
  obtain ⟨b, hb⟩ := h2.add
  exact ⟨a ++ b, by rw [hb, ha, List.append_assoc]⟩

theorem Ext.same {r r' : Run} (h1 : r'.files = r.files) (h2 : r'.missing = r.missing) (h3 : r'.types = r.types)
    (h4 : r'.sym = r.sym) (h5 : r.errs = true → r'.errs = true) : Ext r r' :=
  ⟨h1, h2, by rw [h3, h4]; exact id, ⟨[], by simp [h3]⟩, h5⟩

theorem Ext.addType (r : Run) (e : Entry) : Ext r (addType r e) := by
  have h := addType_grow r e
  obtain ⟨a, ha, _⟩ := h.add
  exact ⟨h.files, h.missing, h.cons, ⟨a, ha⟩, by rw [addType_errs]; exact id⟩

theorem Ext.parent (r : Run) (p : Option Bytes) : Ext r (pushParent r p) := by
  cases p with
  | none => exact Ext.refl r
  | some p => exact Ext.same rfl rfl rfl rfl id

theorem buildClass_ext (r r' : Run) (o nm p : Option Bytes) (src : Option Source) (h : buildClass r o nm p src = .ok r') :
    Ext r r' ∧ r'.queue.length ≤ r.queue.length + (if p.isSome then 1 else 0) := by
  have hlen : ∀ r : Run, (pushParent r p).queue.length ≤
      r.queue.length + (if p.isSome then 1 else 0) := by
    intro r
    cases p with
    | none => exact Nat.le_refl _
    | some p => simp [pushParent, pushUse]
  cases o with
  | none => cases h
  | some o =>
    simp only [buildClass, Out.pure_eq, Out.ok_bind] at h
    split at h
    · cases nm with
      | some m =>
        simp only [Out.ok.injEq] at h
        subst h
        exact ⟨Ext.same rfl rfl rfl rfl (fun _ => rfl), by simp [Run.error]⟩
      | none =>
        simp only [Out.ok.injEq] at h
        subst h
        refine ⟨?_, ?_⟩
        · exact Ext.trans (r1 := { r with refs := r.refs ++ [o] }) (Ext.same rfl rfl rfl rfl id) (Ext.trans (Ext.addType _ _) (Ext.parent _ p))
        · have := hlen (addType { r with refs := r.refs ++ [o] } { name := o, src := src })
          rw [addType_queue] at this
          exact this
    · cases nm with
      | none => cases h
      | some m =>
        have e1 : Ext r (pushParent (addType { r with refs := r.refs ++ [m] } { name := m, src := src }) p) :=
          Ext.trans (r1 := { r with refs := r.refs ++ [m] }) (Ext.same rfl rfl rfl rfl id) (Ext.trans (Ext.addType _ _) (Ext.parent _ p))
        have l1 := hlen (addType { r with refs := r.refs ++ [m] } { name := m, src := src })
        rw [addType_queue] at l1
        simp only at h
        split at h
        · cases h; exact ⟨e1, l1⟩
        · split at h
          · cases h; exact ⟨e1, l1⟩
          · cases h
            exact ⟨Ext.trans e1 (Ext.same rfl rfl rfl rfl (fun _ => rfl)), l1⟩

theorem item_ext (o : Option Bytes) (i : Item) (r r' : Run) (h : item o r i = .ok r') :
    Ext r r' ∧ r'.queue.length ≤ r.queue.length + 1 := by
  cases i with
  | use n q => cases h; exact ⟨Ext.same rfl rfl rfl rfl id, by simp [pushParent, pushUse]⟩
  | err => cases h; exact ⟨Ext.same rfl rfl rfl rfl (fun _ => rfl), by simp [Run.error]⟩
  | anon l c =>
    cases o with
    | none => cases h
    | some o =>
      simp only [item] at h
      split at h
      · have := buildClass_ext _ _ _ _ _ _ h
        exact ⟨this.1, Nat.le_trans this.2 (by simp)⟩
      · cases h

theorem items_ext (o : Option Bytes) (is : List Item) : ∀ r r', items o r is = .ok r' →
    Ext r r' ∧ r'.queue.length ≤ r.queue.length + is.length := by
  induction is with
  | nil => intro r r' h; cases h; exact ⟨Ext.refl r, by simp⟩
  | cons i is ih =>
    intro r r' h
    simp only [items] at h
    cases h1 : item o r i with
    | die m => rw [h1] at h; cases h
    | ub => rw [h1] at h; cases h
    | ok r1 =>
      rw [h1] at h
      have d1 := item_ext o i r r1 h1
      have d2 := ih r1 r' h
      exact ⟨d1.1.trans d2.1, by simp only [List.length_cons]; omega⟩

/-- Whatever the parser does with a source. -/
theorem parse_ext (r r' : Run) (o : Option Bytes) (s : Source) (b : Bool) (h : parse r o s = .ok (r', b)) :
    Ext r r' ∧ (b = false → r'.queue.length ≤ r.queue.length + uses s) := by
  unfold parse at h
  unfold uses
  cases hb : s.body with
  | blank =>
    rw [hb] at h
    cases h
    exact ⟨Ext.refl _, fun _ => by simp⟩
  | broken is =>
    rw [hb] at h
    simp only at h
    cases h1 : items o r is with
    | die m => rw [h1] at h; cases h
    | ub => rw [h1] at h; cases h
    | ok r1 =>
      rw [h1] at h
      cases h
      exact ⟨(items_ext o is _ _ h1).1, fun h => by cases h⟩
  | cls is nm p refs =>
    rw [hb] at h
    simp only at h
    cases h1 : items o { r with refs := r.refs ++ refs } is with
    | die m => rw [h1] at h; cases h
    | ub => rw [h1] at h; cases h
    | ok r1 =>
      rw [h1] at h
      simp only [Out.ok_bind] at h
      cases h2 : buildClass r1 o nm p (some s) with
      | die m => rw [h2] at h; cases h
      | ub => rw [h2] at h; cases h
      | ok r2 =>
        rw [h2] at h
        cases h
        have d1 := items_ext o is _ _ h1
        have d2 := buildClass_ext _ _ _ _ _ _ h2
        refine ⟨Ext.trans (Ext.trans (r1 := { r with refs := r.refs ++ refs }) (Ext.same rfl rfl rfl rfl id) d1.1) d2.1, fun _ => ?_⟩
        have a := d1.2
        have b := d2.2
        simp only at a ⊢
        omega

/-! ## A source without errors -/

/-- The entries that a source adds. -/
def Adds (n : Bytes) (s : Source) (e : Entry) : Prop :=
  ∃ is nm p refs, s.body = .cls is nm p refs ∧ (e = { name := n, src := some s } ∨ IsAnon n is e)

/-- What the parser does with a source that has no errors. -/
structure DidParse (n : Bytes) (s : Source) (r r' : Run) : Prop where
  grow : Grow r r' (Adds n s)
  queue : ∀ p, p ∈ r'.queue ↔ p ∈ r.queue ∨ Mentions s p.1 p.2
  refs : ∀ t, t ∈ r'.refs ↔ t ∈ r.refs ∨ ∃ is nm p refs, s.body = .cls is nm p refs ∧
    (t = n ∨ t ∈ refs ∨ (∃ q, Mentions s t q) ∨ (anonCls n = false ∧ ∃ l c, .anon l c ∈ is ∧ t = anonName n l c))

/-- A source whose class has a name like the generated ones, but not its own, is left out. -/
def Named (n : Bytes) (s : Source) : Prop :=
  ∀ is m p refs, s.body = .cls is (some m) p refs → anonCls n = false → m = n ∨ (strstr anonMethodMark m || strstr anonClassMark m) = false

/-- The errors of a class. -/
theorem buildClass_spec (r r' : Run) (n : Bytes) (nm p : Option Bytes) (src : Option Source)
    (hn : ∀ m, nm = some m → anonCls n = false → m = n ∨ (strstr anonMethodMark m || strstr anonClassMark m) = false)
    (h : buildClass r (some n) nm p src = .ok r') :
    (r'.errs = false ↔ r.errs = false ∧ (anonCls n = true → nm = none) ∧ (anonCls n = false → nm = some n)) ∧
    (r'.errs = false → Grow r r' (fun e => e = { name := n, src := src }) ∧
      (∀ q, q ∈ r'.queue ↔ q ∈ r.queue ∨ (q.2 = false ∧ p = some q.1)) ∧
      (∀ t, t ∈ r'.refs ↔ t ∈ r.refs ∨ t = n ∨ p = some t)) := by
  have fin : ∀ r : Run, Grow r (pushParent (addType { r with refs := r.refs ++ [n] } { name := n, src := src }) p) (fun e => e = { name := n, src := src }) ∧
      (∀ q, q ∈ (pushParent (addType { r with refs := r.refs ++ [n] } { name := n, src := src }) p).queue ↔ q ∈ r.queue ∨ (q.2 = false ∧ p = some q.1)) ∧
      (∀ t, t ∈ (pushParent (addType { r with refs := r.refs ++ [n] } { name := n, src := src }) p).refs ↔ t ∈ r.refs ∨ t = n ∨ p = some t) := by
    intro r
    have g := Grow.congr (r2 := r) (r2' := addType { r with refs := r.refs ++ [n] } { name := n, src := src })
      (addType_grow { r with refs := r.refs ++ [n] } { name := n, src := src }) rfl rfl rfl rfl rfl rfl rfl rfl
    cases p with
    | none =>
      refine ⟨g, ?_, ?_⟩
      · intro q; simp [pushParent, addType_queue]
      · intro t; simp [pushParent, addType_refs]
    | some p =>
      refine ⟨Grow.congr g rfl rfl rfl rfl rfl rfl rfl rfl, ?_, ?_⟩
      · intro q
        obtain ⟨q1, q2⟩ := q
        simp only [pushParent, pushUse, addType_queue, List.mem_append, List.mem_singleton, Prod.mk.injEq, Option.some.injEq]
        constructor
        · rintro (h | ⟨rfl, rfl⟩)
          · exact .inl h
          · exact .inr ⟨rfl, rfl⟩
        · rintro (h | ⟨rfl, rfl⟩)
          · exact .inl h
          · exact .inr ⟨rfl, rfl⟩
      · intro t
        simp only [pushParent, pushUse, addType_refs, List.mem_append, List.mem_singleton, Option.some.injEq, or_assoc]
        constructor
        · rintro (h | h | h)
          · exact .inl h
          · exact .inr (.inl h)
          · exact .inr (.inr h.symm)
        · rintro (h | h | h)
          · exact .inl h
          · exact .inr (.inl h)
          · exact .inr (.inr h.symm)
  have ferrs : ∀ m, (pushParent (addType { r with refs := r.refs ++ [m] } { name := m, src := src }) p).errs = r.errs := by
    intro m
    cases p <;> simp [pushParent, pushUse, addType_errs]
  simp only [buildClass, Out.pure_eq, Out.ok_bind] at h
  cases ha : strstr anonClassMark n with
  | true =>
    have ha' : anonCls n = true := ha
    rw [ha] at h
    simp only [if_true] at h
    cases nm with
    | some m =>
      simp only [Out.ok.injEq] at h
      subst h
      simp [Run.error, ha']
    | none =>
      simp only [Out.ok.injEq] at h
      subst h
      refine ⟨?_, fun _ => fin r⟩
      rw [ferrs]
      simp [ha']
  | false =>
    have ha' : anonCls n = false := ha
    rw [ha] at h
    simp only [Bool.false_eq_true, if_false] at h
    cases nm with
    | none => cases h
    | some m =>
      simp only at h
      rcases hn m rfl ha' with rfl | hm
      · simp only [if_true, ite_self, Out.ok.injEq] at h
        subst h
        refine ⟨?_, fun _ => fin r⟩
        rw [ferrs]
        simp [ha']
      · rw [hm] at h
        simp only [Bool.false_eq_true, if_false] at h
        split at h
        · rename_i hmn
          subst hmn
          cases h
          refine ⟨?_, fun _ => fin r⟩
          rw [ferrs]
          simp [ha']
        · rename_i hmn
          cases h
          simp [Run.error, ha', hmn]

/-- No errors in the source of `n`. -/
def Clean (n : Bytes) (s : Source) : Prop :=
  s.body = .blank ∨ ∃ is nm p refs, s.body = .cls is nm p refs ∧ .err ∉ is ∧
    (anonCls n = true → nm = none ∧ ∀ l c, .anon l c ∉ is) ∧ (anonCls n = false → nm = some n)

theorem parse_spec (r r' : Run) (n : Bytes) (s : Source) (b : Bool) (hn : Named n s) (h : parse r (some n) s = .ok (r', b)) :
    (b = false ∧ r'.errs = false ↔ r.errs = false ∧ Clean n s) ∧
    (b = false → r'.errs = false → DidParse n s r r') := by
  unfold parse at h
  unfold Clean
  cases hb : s.body with
  | blank =>
    rw [hb] at h
    cases h
    refine ⟨by simp, fun _ _ => ⟨Grow.trans (Grow.refl _) (Grow.refl _) ?_, ?_, ?_⟩⟩
    · intro e
      simp only [or_self, iff_false]
      rintro ⟨is, nm, p, refs, h, _⟩
      rw [hb] at h; cases h
    · intro p
      constructor
      · exact .inl
      · obtain ⟨p1, p2⟩ := p
        rintro (h | h)
        · exact h
        · cases h with
          | item h _ => rw [hb] at h; cases h
          | parent h => rw [hb] at h; cases h
    · intro t
      constructor
      · exact .inl
      · rintro (h | ⟨is, nm, p, refs, h, _⟩)
        · exact h
        · rw [hb] at h; cases h
  | broken is =>
    rw [hb] at h
    simp only at h
    cases h1 : items (some n) r is with
    | die m => rw [h1] at h; cases h
    | ub => rw [h1] at h; cases h
    | ok r1 =>
      rw [h1] at h
      cases h
      refine ⟨by simp, fun h => by cases h⟩
  | cls is nm p refs =>
    rw [hb] at h
    simp only at h
    cases h1 : items (some n) { r with refs := r.refs ++ refs } is with
    | die m => rw [h1] at h; cases h
    | ub => rw [h1] at h; cases h
    | ok r1 =>
      rw [h1] at h
      simp only [Out.ok_bind] at h
      cases h2 : buildClass r1 (some n) nm p (some s) with
      | die m => rw [h2] at h; cases h
      | ub => rw [h2] at h; cases h
      | ok r2 =>
        rw [h2] at h
        cases h
        have d1 := items_spec n is _ _ h1
        have d2 := buildClass_spec r1 r' n nm p (some s) (fun m hm ha => hn is m p refs (by rw [hb, hm]) ha) h2
        refine ⟨?_, ?_⟩
        · have e1 := d1.errs
          rw [d2.1]
          have e2 : r1.errs = false ↔ r.errs = false ∧ .err ∉ is ∧ (anonCls n = true → ∀ l c, .anon l c ∉ is) := by
            rw [← Bool.not_eq_true, e1]
            simp only [not_or, not_and, not_exists, Bool.not_eq_true]
          rw [e2]
          constructor
          · rintro ⟨_, ⟨a, b, c⟩, d, e⟩
            exact ⟨a, .inr ⟨is, nm, p, refs, rfl, b, fun h => ⟨d h, c h⟩, e⟩⟩
          · rintro ⟨a, h | ⟨is', nm', p', refs', h, b, c, d⟩⟩
            · cases h
            · cases h
              exact ⟨rfl, ⟨a, b, fun h => (c h).2⟩, fun h => (c h).1, d⟩
        · intro _ he
          obtain ⟨g2, q2, f2⟩ := d2.2 he
          refine ⟨?_, ?_, ?_⟩
          · refine Grow.trans (Grow.congr (r2 := r) d1.grow rfl rfl rfl rfl rfl rfl rfl rfl) g2 ?_
            intro e
            constructor
            · rintro ⟨is', nm', p', refs', h, h'⟩
              rw [hb] at h
              cases h
              exact h'.symm
            · intro h
              exact ⟨is, nm, p, refs, hb, h.symm⟩
          · intro q
            rw [q2, d1.queue]
            constructor
            · rintro ((h | h) | ⟨hq, h⟩)
              · exact .inl h
              · exact .inr (.item hb h)
              · subst h
                exact .inr (by rw [hq]; exact .parent hb)
            · rintro (h | h)
              · exact .inl (.inl h)
              · obtain ⟨q1, q2⟩ := q
                cases h with
                | item h hi => rw [hb] at h; cases h; exact .inl (.inr hi)
                | parent h => rw [hb] at h; cases h; exact .inr ⟨rfl, rfl⟩
          · intro t
            rw [f2, d1.refs]
            constructor
            · rintro ((h | ⟨q, h⟩ | ⟨a, h⟩) | h | h)
              · rcases List.mem_append.1 h with h | h
                · exact .inl h
                · exact .inr ⟨is, nm, p, refs, hb, .inr (.inl h)⟩
              · exact .inr ⟨is, nm, p, refs, hb, .inr (.inr (.inl ⟨q, .item hb h⟩))⟩
              · exact .inr ⟨is, nm, p, refs, hb, .inr (.inr (.inr ⟨a, h⟩))⟩
              · exact .inr ⟨is, nm, p, refs, hb, .inl h⟩
              · subst h
                exact .inr ⟨is, nm, _, refs, hb, .inr (.inr (.inl ⟨false, .parent hb⟩))⟩
            · rintro (h | ⟨is', nm', p', refs', h, h'⟩)
              · exact .inl (.inl (List.mem_append_left _ h))
              · rw [hb] at h
                cases h
                rcases h' with h | h | ⟨q, h⟩ | ⟨a, h⟩
                · exact .inr (.inl h)
                · exact .inl (.inl (List.mem_append_right _ h))
                · cases h with
                  | item h hi => rw [hb] at h; cases h; exact .inl (.inr (.inl ⟨q, hi⟩))
                  | parent h => rw [hb] at h; cases h; exact .inr (.inr rfl)
                · exact .inl (.inr (.inr ⟨a, h⟩))

/-- The parser comes to an end on a safe source. -/
theorem parse_total (r : Run) (n : Bytes) (s : Source) (hs : Safe n s) : ∃ r' b, parse r (some n) s = .ok (r', b) := by
  unfold parse
  cases hb : s.body with
  | blank => exact ⟨_, _, rfl⟩
  | broken is =>
    obtain ⟨r1, h1⟩ := items_total n is (fun l c h => (hs is none none []).2 (.inr hb) l c h) r
    simp only [h1]
    exact ⟨_, _, rfl⟩
  | cls is nm p refs =>
    obtain ⟨r1, h1⟩ := items_total n is (fun l c h => (hs is nm p refs).2 (.inl hb) l c h) { r with refs := r.refs ++ refs }
    simp only [h1, Out.ok_bind]
    suffices h : ∃ r2, buildClass r1 (some n) nm p (some s) = .ok r2 by
      obtain ⟨r2, h2⟩ := h
      simp only [h2]
      exact ⟨_, _, rfl⟩
    simp only [buildClass, Out.pure_eq, Out.ok_bind]
    cases ha : strstr anonClassMark n with
    | true =>
      simp only [if_true]
      cases nm <;> exact ⟨_, rfl⟩
    | false =>
      have hne : nm ≠ none := ((hs is nm p refs).1 hb (by rw [mark_class]; exact (strstr_false _ _).1 ha)).1
      simp only [Bool.false_eq_true, if_false]
      cases nm with
      | none => exact absurd rfl hne
      | some m =>
        simp only
        split
        · exact ⟨_, rfl⟩
        · split <;> exact ⟨_, rfl⟩

end Load
end SPVM
