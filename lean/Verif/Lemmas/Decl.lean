import Verif.Model.Decl
/-!
# Lemmas on declarations
-/
namespace SPVM
namespace Decl

theorem hasColons_iff (n : Name) : hasColons n = true ↔ HasColons n := by
  induction n with
  | nil =>
    constructor
    · intro h; cases h
    · rintro ⟨a, b, h⟩
      cases a <;> cases h
  | cons c cs ih =>
    simp only [hasColons, Bool.or_eq_true, Bool.and_eq_true, beq_iff_eq, ih]
    constructor
    · rintro (⟨h1, h2⟩ | ⟨a, b, h⟩)
      · cases cs with
        | nil => cases h2
        | cons d ds =>
          simp at h2
          exact ⟨[], ds, by rw [h1, h2]; rfl⟩
      · exact ⟨c :: a, b, by rw [h]; rfl⟩
    · rintro ⟨a, b, h⟩
      cases a with
      | nil =>
        simp at h
        left
        exact ⟨h.1, by rw [h.2]; rfl⟩
      | cons x xs =>
        simp at h
        right
        exact ⟨xs, b, h.2⟩

theorem redeclared_nil (ns seen : List Name) : redeclared seen ns = [] ↔ ns.Nodup ∧ ∀ n ∈ ns, n ∉ seen := by
  induction ns generalizing seen with
  | nil => simp [redeclared]
  | cons n ns ih =>
    simp only [redeclared]
    split
    · rename_i h
      simp [h]
    · rename_i h
      rw [ih]
      simp only [List.nodup_cons, List.mem_cons]
      constructor
      · rintro ⟨h1, h2⟩
        refine ⟨⟨fun hm => (h2 n hm) (.inl rfl), h1⟩, ?_⟩
        rintro x (rfl | hx)
        · exact h
        · exact fun hs => h2 x hx (.inr hs)
      · rintro ⟨⟨h1, h2⟩, h3⟩
        refine ⟨h2, ?_⟩
        rintro x hx (rfl | hs)
        · exact h1 hx
        · exact h3 x (.inr hx) hs

theorem redeclared_nil' (ns : List Name) : redeclared [] ns = [] ↔ ns.Nodup := by
  rw [redeclared_nil]; simp

theorem find_of_nodup (l : List Method) (m : Method) (hm : m ∈ l) (hn : (l.map (·.name)).Nodup) :
    l.find? (fun x => x.name == m.name) = some m := by
  induction l with
  | nil => cases hm
  | cons a l ih =>
    simp only [List.map_cons, List.nodup_cons] at hn
    by_cases h : a.name = m.name
    · rcases List.mem_cons.mp hm with rfl | h'
      · simp
      · exact absurd (List.mem_map.mpr ⟨m, h', h.symm⟩) hn.1
    · rcases List.mem_cons.mp hm with rfl | h'
      · exact absurd rfl h
      · rw [List.find?_cons_of_neg (by simpa using h)]
        exact ih h' hn.2

/-! ## Versions -/

theorem isDigit_iff (b : UInt8) : isDigit b = true ↔ 48 ≤ b ∧ b ≤ 57 := by simp [isDigit]

theorem isDigit_46 (b : UInt8) (h : isDigit b = true) : b ≠ 46 := by
  rintro rfl
  revert h
  decide

theorem digits_cons (b : UInt8) (s : List UInt8) : Digits (b :: s) ↔ isDigit b = true ∧ Digits s := by
  rw [isDigit_iff]; simp [Digits]

/-- After the first point. -/
theorem scan_after (s : List UInt8) (k : Nat) (h : Digits s) : scanVersion s 1 k = some (1, k + s.length) := by
  induction s generalizing k with
  | nil => rfl
  | cons b s ih =>
    have hb := (digits_cons b s).mp h
    have h46 := isDigit_46 b hb.1
    rw [scanVersion]
    simp [hb.1, h46]
    rw [ih _ hb.2]
    simp
    omega

/-- The loop with dots before: at least as many in the end. -/
theorem scan_inv (s : List UInt8) (d k d' k' : Nat) (h : scanVersion s d k = some (d', k')) :
    d ≤ d' ∧ (d = d' → Digits s ∧ (d = 0 → k' = k) ∧ (0 < d → k' = k + s.length)) := by
  induction s generalizing d k with
  | nil =>
    simp [scanVersion] at h
    obtain ⟨rfl, rfl⟩ := h
    simp [Digits]
  | cons b s ih =>
    rw [scanVersion] at h
    by_cases hc : b = 46
    · subst hc
      simp [show isDigit 46 = false from by decide] at h
      have := ih _ _ h
      refine ⟨by omega, fun e => by omega⟩
    · by_cases hd : isDigit b = true
      · simp [hc, hd] at h
        have := ih _ _ h
        refine ⟨this.1, fun e => ?_⟩
        have t := this.2 e
        refine ⟨(digits_cons b s).mpr ⟨hd, t.1⟩, ?_, ?_⟩
        · intro h0; rw [t.2.1 h0]; simp [h0]
        · intro h0; rw [t.2.2 h0]; simp [h0]; omega
      · simp [hc, hd] at h

theorem scan_one (s : List UInt8) (k' : Nat) (h : scanVersion s 0 0 = some (1, k')) :
    ∃ a b, s = a ++ 46 :: b ∧ Digits a ∧ Digits b ∧ k' = b.length := by
  induction s with
  | nil => simp [scanVersion] at h
  | cons c s ih =>
    rw [scanVersion] at h
    by_cases hc : c = 46
    · subst hc
      simp [show isDigit 46 = false from by decide] at h
      have := scan_inv _ _ _ _ _ h
      have t := this.2 rfl
      refine ⟨[], s, rfl, by simp [Digits], t.1, ?_⟩
      have := t.2.2 (by omega)
      omega
    · by_cases hd : isDigit c = true
      · simp [hc, hd] at h
        obtain ⟨a, b, rfl, h1, h2, h3⟩ := ih h
        exact ⟨c :: a, b, rfl, (digits_cons c a).mpr ⟨hd, h1⟩, h2, h3⟩
      · simp [hc, hd] at h

theorem scan_digits (s r : List UInt8) (h : Digits s) : scanVersion (s ++ r) 0 0 = scanVersion r 0 0 := by
  induction s with
  | nil => rfl
  | cons b s ih =>
    have hb := (digits_cons b s).mp h
    have h46 := isDigit_46 b hb.1
    show scanVersion (b :: (s ++ r)) 0 0 = _
    rw [scanVersion]
    simp [hb.1, h46]
    exact ih hb.2

theorem dropWhile_digits (s r : List UInt8) (h : Digits s) (hr : ∀ b, r.head? = some b → isDigit b = false) :
    (s ++ r).dropWhile isDigit = r := by
  induction s with
  | nil =>
    cases r with
    | nil => rfl
    | cons b r =>
      have := hr b rfl
      simp [this]
  | cons b s ih =>
    have hb := (digits_cons b s).mp h
    simp [hb.1]
    exact ih hb.2

theorem getLastD_digit (s : List UInt8) (hs : s ≠ []) (h : Digits s) (d : UInt8) : isDigit (s.getLastD d) = true := by
  rw [isDigit_iff]
  have : s.getLastD d = s.getLast hs := by
    cases s with
    | nil => exact absurd rfl hs
    | cons a s => rw [List.getLastD_eq_getLast?, List.getLast?_eq_some_getLast hs]; rfl
  rw [this]
  exact h _ (List.getLast_mem hs)

theorem checkVersion_iff (s : List UInt8) : checkVersion s = none ↔ VersionOk s := by
  constructor
  · intro h
    unfold checkVersion at h
    split at h
    · cases h
    rename_i dots after hs
    split at h
    · cases h
    rename_i hb
    split at h
    · cases h
    rename_i he
    split at h
    · cases h
    rename_i hd
    split at h
    · cases h
    rename_i hg
    simp at hb he hd hg
    have inv := scan_inv _ _ _ _ _ hs
    rcases Nat.lt_or_ge 0 dots with h0 | h0
    · obtain rfl : dots = 1 := by omega
      obtain ⟨a, b, rfl, h1, h2, h3⟩ := scan_one _ _ hs
      refine ⟨a, ?_, h1, .inr ⟨b, ?_, h2, by omega, rfl⟩⟩
      · rintro rfl
        revert hb
        simp
        decide
      · rintro rfl
        revert he
        simp
        decide
    · obtain rfl : dots = 0 := by omega
      refine ⟨s, ?_, (inv.2 rfl).1, .inl rfl⟩
      rintro rfl
      revert hb
      decide
  · rintro ⟨a, ha, hda, rfl | ⟨b, hb, hdb, h3, rfl⟩⟩
    · have e : scanVersion s 0 0 = some (0, 0) := by
        have := scan_digits s [] hda
        rw [List.append_nil] at this
        rw [this]; rfl
      unfold checkVersion
      rw [e]
      simp only
      have hh : isDigit (s.headD 0) = true := by
        cases s with
        | nil => exact absurd rfl ha
        | cons x s => exact ((digits_cons x s).mp hda).1
      have hw : s.dropWhile isDigit = [] := by
        have := dropWhile_digits s [] hda (by simp)
        rwa [List.append_nil] at this
      have hl := getLastD_digit s ha hda 0
      rw [hh, hl]
      simp [strtodEnd, hw]
    · have e : scanVersion (a ++ 46 :: b) 0 0 = some (1, b.length) := by
        rw [scan_digits _ _ hda, scanVersion]
        simp [show isDigit 46 = false from by decide]
        rw [scan_after _ _ hdb]
        simp
      unfold checkVersion
      rw [e]
      simp only
      have hh : isDigit ((a ++ 46 :: b).headD 0) = true := by
        cases a with
        | nil => exact absurd rfl ha
        | cons x s => exact ((digits_cons x s).mp hda).1
      have hl : isDigit ((a ++ 46 :: b).getLastD 0) = true := by
        have : (a ++ 46 :: b).getLastD 0 = b.getLastD 46 := by
          rw [List.getLastD_eq_getLast?, List.getLast?_append, List.getLast?_cons]
          simp
        rw [this]
        exact getLastD_digit b hb hdb 46
      have hw : (a ++ 46 :: b).dropWhile isDigit = 46 :: b :=
        dropWhile_digits a _ hda (by intro x hx; simp at hx; subst hx; decide)
      have hw2 : b.dropWhile isDigit = [] := by
        have := dropWhile_digits b [] hdb (by simp)
        rwa [List.append_nil] at this
      have ht : (a ++ 46 :: b).takeWhile isDigit ≠ [] := by
        cases a with
        | nil => exact absurd rfl ha
        | cons x s =>
          have := ((digits_cons x s).mp hda).1
          simp [this]
      have hs : strtodEnd (a ++ 46 :: b) = [] := by
        unfold strtodEnd
        rw [hw]
        simp only [ht, hw2]
        simp
      rw [hh, hl, hs]
      simp [h3]

/-! ## Enumerations -/

/-- The values from a counter on. -/
def valsFrom (cur : Int) : List (Option Int) → List Int
  | [] => []
  | g :: gs => g.getD cur :: valsFrom (g.getD cur + 1) gs

theorem enumValues_from (gs : List (Option Int)) : EnumValues gs (valsFrom 0 gs) := by
  have len : ∀ cur, (valsFrom cur gs).length = gs.length := by
    induction gs with
    | nil => intro; rfl
    | cons g gs ih => intro cur; simp [valsFrom, ih]
  refine ⟨len 0, ?_, ?_, ?_⟩
  · suffices h : ∀ cur (k : Nat) v, gs[k]? = some (some v) → (valsFrom cur gs)[k]? = some v from h 0
    clear len
    induction gs with
    | nil => intro cur k v h; cases h
    | cons g gs ih =>
      intro cur k v h
      cases k with
      | zero => simp at h; subst h; simp [valsFrom]
      | succ k => simp at h; simp [valsFrom]; exact ih _ k v h
  · intro h
    cases gs with
    | nil => cases h
    | cons g gs => simp at h; subst h; simp [valsFrom]
  · suffices h : ∀ cur (k : Nat) v, gs[k + 1]? = some none → (valsFrom cur gs)[k]? = some v →
        (valsFrom cur gs)[k + 1]? = some (v + 1) from h 0
    clear len
    induction gs with
    | nil => intro cur k v h; cases h
    | cons g gs ih =>
      intro cur k v h1 h2
      cases k with
      | zero =>
        simp [valsFrom] at h2
        cases gs with
        | nil => cases h1
        | cons g' gs => simp at h1; subst h1; simp [valsFrom, h2]
      | succ k => simp at h1; simp [valsFrom] at h2 ⊢; exact ih _ k v h1 h2

theorem enumValues_unique (gs : List (Option Int)) (a b : List Int) (ha : EnumValues gs a) (hb : EnumValues gs b) : a = b := by
  obtain ⟨la, a1, a2, a3⟩ := ha
  obtain ⟨lb, b1, b2, b3⟩ := hb
  apply List.ext_getElem?
  intro k
  induction k with
  | zero =>
    cases hg : gs[0]? with
    | none =>
      have := List.getElem?_eq_none_iff.mp hg
      rw [List.getElem?_eq_none_iff.mpr (by omega), List.getElem?_eq_none_iff.mpr (by omega)]
    | some o =>
      cases o with
      | none => rw [a2 hg, b2 hg]
      | some v => rw [a1 0 v hg, b1 0 v hg]
  | succ k ih =>
    cases hg : gs[k + 1]? with
    | none =>
      have := List.getElem?_eq_none_iff.mp hg
      rw [List.getElem?_eq_none_iff.mpr (by omega), List.getElem?_eq_none_iff.mpr (by omega)]
    | some o =>
      cases o with
      | none =>
        have hk := (List.getElem?_eq_some_iff.mp hg).1
        have e : a[k]? = some (a[k]'(by omega)) := List.getElem?_eq_getElem (by omega)
        rw [a3 k _ hg e, b3 k _ hg (ih ▸ e)]
      | some v => rw [a1 _ v hg, b1 _ v hg]

/-- The method of an item. -/
def itemMethod (i : Item) (v : Int) : Method :=
  newMethod i.name true false false (some .int) [] (.gen (.ret (.int v)))

def itemErrs (i : Item) : List Err :=
  (match i.value with | none | some (.int _) => [] | some _ => [.enumType]) ++ (itemMethod i 0).errs

theorem itemMethod_errs (i : Item) (v : Int) : (itemMethod i v).errs = (itemMethod i 0).errs := rfl

/-- The value in the op of an item. -/
def itemVal (i : Item) (cur : Int) : Int :=
  match i.value with
  | some (.int v) => v
  | some _ => 0
  | none => cur

theorem enumItem_eq (cur : Int) (i : Item) :
    enumItem cur i =
      if (i.given.getD cur) = 2147483647 then .ub
      else .ok (itemMethod i (itemVal i cur), itemErrs i, i.given.getD cur + 1) := by
  by_cases h : i.given.getD cur = 2147483647
  · rw [if_pos h]
    obtain ⟨n, v⟩ := i
    rcases v with _ | (v | s | _)
    all_goals
      simp only [Item.given, Option.getD] at h
      simp only [enumItem, incr, if_pos h]
  · rw [if_neg h]
    obtain ⟨n, v⟩ := i
    rcases v with _ | (v | s | _)
    all_goals
      simp only [Item.given, Option.getD] at h
      simp only [enumItem, incr, if_neg h]
      rfl

/-- The methods of the items, from a counter on. -/
def enumMethods (cur : Int) : List Item → List Method
  | [] => []
  | i :: is => itemMethod i (itemVal i cur) :: enumMethods (i.given.getD cur + 1) is

theorem enumItems_eq (items : List Item) (cur : Int) :
    (2147483647 ∈ valsFrom cur (items.map Item.given) ∧ enumItems cur items = .ub) ∨
    (2147483647 ∉ valsFrom cur (items.map Item.given) ∧
      ∃ last, enumItems cur items = .ok (enumMethods cur items, items.flatMap itemErrs, last)) := by
  induction items generalizing cur with
  | nil => right; exact ⟨by simp [valsFrom], cur, rfl⟩
  | cons i is ih =>
    simp only [enumItems, enumItem_eq, List.map_cons, valsFrom, List.mem_cons]
    by_cases h : i.given.getD cur = 2147483647
    · left; exact ⟨.inl h.symm, by rw [if_pos h]⟩
    · rw [if_neg h]
      rcases ih (i.given.getD cur + 1) with ⟨h1, h2⟩ | ⟨h1, last, h2⟩
      · left; exact ⟨.inr h1, by simp [h2]⟩
      · right
        refine ⟨?_, last, by simp [h2, enumMethods]⟩
        rintro (h' | h')
        · exact h h'.symm
        · exact h1 h'

theorem enumMethods_names (items : List Item) (cur : Int) : (enumMethods cur items).map (·.name) = items.map (·.name) := by
  induction items generalizing cur with
  | nil => rfl
  | cons i is ih => simp [enumMethods, ih]; rfl

theorem enumMethods_get (items : List Item) (cur : Int) (k : Nat) (i : Item) (v : Int) (hi : i.Int) (h : items[k]? = some i)
    (hv : (valsFrom cur (items.map Item.given))[k]? = some v) : itemMethod i v ∈ enumMethods cur items := by
  induction items generalizing cur k with
  | nil => cases h
  | cons j is ih =>
    cases k with
    | zero =>
      simp at h
      subst h
      simp [valsFrom] at hv
      subst hv
      simp only [enumMethods]
      have : itemVal j cur = j.given.getD cur := by
        rcases hi with h | ⟨v, h⟩ <;> simp [itemVal, Item.given, h]
      rw [this]
      exact List.mem_cons_self
    | succ k =>
      simp [valsFrom] at h hv
      exact List.mem_cons_of_mem _ (ih _ k h hv)

/-- The methods of an enumeration: one for every item. -/
theorem mem_enumMethods (items : List Item) (cur : Int) (m : Method) (h : m ∈ enumMethods cur items) :
    ∃ i ∈ items, ∃ v, m = itemMethod i v := by
  induction items generalizing cur with
  | nil => cases h
  | cons i is ih =>
    rcases List.mem_cons.mp h with rfl | h
    · exact ⟨i, List.mem_cons_self, _, rfl⟩
    · obtain ⟨j, hj, v, e⟩ := ih _ h
      exact ⟨j, List.mem_cons_of_mem _ hj, v, e⟩

end Decl
end SPVM
