import Verif.Model.Options
import Verif.Lemmas.Callback
import Verif.Props.HashTyped
import Verif.Props.ArrayOps
import Verif.Props.Sort
/-!
# C80: option arrays
-/
namespace SPVM.Options
open Spec.HashTyped (Val Before)
open Spec.Hash (Bytes)
open Spec.Options

/-! ## merge_options -/

/-- **C80** (`Fn->merge_options`): `undef` counts as no options; the result has the first options and then the second, and
arrays of odd length throw. -/
theorem merge_options (limit : Nat) (o₁ o₂ : Option (List (Option α)))
    (hI : (o₁.getD []).length + (o₂.getD []).length ≤ 2147483647) (hm : (o₁.getD []).length + (o₂.getD []).length ≤ limit) :
    ((o₁.getD []).length % 2 = 0 ∧ (o₂.getD []).length % 2 = 0 → mergeOptions limit o₁ o₂ = .ok (o₁.getD [] ++ o₂.getD [])) ∧
    ((o₁.getD []).length % 2 = 1 → mergeOptions limit o₁ o₂ = .die msgEven1) ∧
    ((o₁.getD []).length % 2 = 0 ∧ (o₂.getD []).length % 2 = 1 → mergeOptions limit o₁ o₂ = .die msgEven2) := by
  unfold mergeOptions
  refine ⟨?_, ?_, ?_⟩
  · rintro ⟨h1, h2⟩
    simp only [h1, h2, not_true, if_false]
    exact (ArrayOps.c25_merge limit none _ _ hI).1 hm
  · intro h
    simp [h]
  · rintro ⟨h1, h2⟩
    simp [h1, h2]

/-- **C80** (`Fn->merge_options` of name-value pairs): the pairs of both. -/
theorem merge_pairs (limit : Nat) (ps qs : List (Bytes × Option Val)) (hI : 2 * (ps.length + qs.length) ≤ 2147483647)
    (hm : 2 * (ps.length + qs.length) ≤ limit) :
    mergeOptions limit (some (spell ps)) (some (spell qs)) = .ok (spell (ps ++ qs)) := by
  have hl : ∀ l : List (Bytes × Option Val), (spell l).length = 2 * l.length := by
    intro l
    induction l with
    | nil => rfl
    | cons p l ih => simp only [spell, List.flatMap_cons, List.length_append] at ih ⊢; simp [ih]; omega
  have := (merge_options limit (some (spell ps)) (some (spell qs)) (by simp [hl]; omega) (by simp [hl]; omega)).1
    (by simp [hl])
  rw [this]
  simp [spell]

/-! ## check_option_names -/

theorem names_cons (x : α) (l : List α) : names (x :: l) = x :: names (l.drop 1) := by
  cases l with
  | nil => simp [names]
  | cons y l => simp [names]

theorem addNames_ok {hash : Bytes → BitVec 64} {limit : Nat} (hlim : limit < 1073741824) (ns : List Bytes) (c : Nat)
    {h : Hash Val} (w : Hash.Wf hash limit h) (hc : h.keysLength ≤ c) (hroom : 3 * (c + ns.length) ≤ limit) :
    ∃ h', addNames hash limit (ns.map some) h = (.ok (), h') ∧ Hash.Wf hash limit h' ∧ h'.keysLength ≤ c + ns.length ∧
      ∀ k, h'.toMap k = if k ∈ ns then some (some (.int 1)) else h.toMap k := by
  induction ns generalizing h c with
  | nil => exact ⟨h, rfl, w, by simpa using hc, by simp⟩
  | cons n ns ih =>
    simp only [List.length_cons] at hroom
    rcases Hash.set_toMap hlim w n (some (.int 1)) with ⟨h1, e1, w1, m1⟩ | ⟨m, _, hb⟩
    · have hl := w.load
      have hf := w.fits
      have hk : h1.keysLength ≤ h.keysLength + 1 := by
        rcases Hash.set_cases (limit := limit) w.toInv (by omega) n (some (.int 1)) with ⟨h', e1', _, e3, _⟩ | ⟨e, _⟩ | ⟨e, _⟩
        · rw [e1] at e1'
          cases e1'
          rw [e3]
          split <;> omega
        · rw [e1] at e; cases e
        · rw [e1] at e; cases e
      obtain ⟨h2, e2, w2, k2, m2⟩ := ih (c + 1) w1 (by omega) (by omega)
      refine ⟨h2, ?_, w2, by simp only [List.length_cons]; omega, ?_⟩
      · simp only [List.map_cons, addNames, Hash.setInt]
        rw [Prog.bind_ok e1]
        exact e2
      · intro k
        rw [m2, m1]
        simp only [Spec.Map.put, List.mem_cons]
        by_cases h1 : k ∈ ns
        · simp [h1]
        · by_cases h2 : k = n <;> simp [h1, h2]
    · omega

theorem get_name {hash : Bytes → BitVec 64} {limit : Nat} {h : Hash Val} (w : Hash.Wf hash limit h) {ns : List Bytes}
    (hm : ∀ k, h.toMap k = if k ∈ ns then some (some (.int 1)) else none) (k : Bytes) :
    (Hash.get hash (some k) h).1 = .ok (if k ∈ ns then some (.int 1) else none) := by
  rw [Hash.get_toMap w.toInv, hm]
  split <;> rfl

theorem add_one {i : Nat} (h : i + 1 ≤ 2147483647) : add32 (i : Int) 1 = .ok ((i + 1 : Nat) : Int) := by
  rw [add32_ok (by unfold I32; omega)]
  simp

theorem add_two {i : Nat} (h : i + 2 ≤ 2147483647) : add32 (i : Int) 2 = .ok ((i + 2 : Nat) : Int) := by
  rw [add32_ok (by unfold I32; omega)]
  simp

theorem two_more {i n : Nat} (hi : i < n) (hn : n < 2147483647) : i + 2 ≤ 2147483647 := by omega

/-- What is wrong with a name that is not available. -/
def complaint : Option Val → String
  | none => Hash.msgKey
  | some (.string n) => msgNotAvailable n
  | some _ => msgCast

theorem checkLoop_good {hash : Bytes → BitVec 64} {limit : Nat} {h : Hash Val} (w : Hash.Wf hash limit h) {ns : List Bytes}
    (hm : ∀ k, h.toMap k = if k ∈ ns then some (some (.int 1)) else none) (options : List (Option Val))
    (hlen : options.length < 2147483647) (f i : Nat) (hf : options.length + 2 ≤ 2 * f + i) (hi : i ≤ options.length + 1)
    (hg : ∀ x ∈ names (options.drop i), ∃ n ∈ ns, x = some (.string n)) :
    checkLoop hash h options f i = .ok () := by
  induction f generalizing i with
  | zero =>
    exfalso
    omega
  | succ f ih =>
    unfold checkLoop
    by_cases hlt : i < options.length
    · have hb := two_more hlt hlen
      clear hlen
      rw [if_pos (by simp only [alen]; omega), aGet_ok (by omega) (by simpa using hlt)]
      rw [List.drop_eq_getElem_cons hlt, names_cons] at hg
      obtain ⟨n, hn, hx⟩ := hg _ (List.mem_cons_self ..)
      simp only [Out.ok_bind, Int.toNat_natCast, hx, castString, get_name w hm, if_pos hn, add_two hb]
      exact ih (i + 2) (by omega) (by omega) (by
        rw [List.drop_drop] at hg
        exact fun x hx => hg x (List.mem_cons_of_mem _ hx))
    · rw [if_neg (by simp only [alen]; omega)]

theorem checkLoop_bad {hash : Bytes → BitVec 64} {limit : Nat} {h : Hash Val} (w : Hash.Wf hash limit h) {ns : List Bytes}
    (hm : ∀ k, h.toMap k = if k ∈ ns then some (some (.int 1)) else none) (options : List (Option Val))
    (hlen : options.length < 2147483647) (f i : Nat) (hf : options.length < f + i) {good rest : List (Option Val)}
    {x : Option Val} (he : names (options.drop i) = good ++ x :: rest) (hg : ∀ x ∈ good, ∃ n ∈ ns, x = some (.string n))
    (hx : ∀ n ∈ ns, x ≠ some (.string n)) : checkLoop hash h options f i = .die (complaint x) := by
  induction f generalizing i good with
  | zero =>
    rw [List.drop_eq_nil_of_le (by omega)] at he
    simp [names] at he
  | succ f ih =>
    unfold checkLoop
    by_cases hlt : i < options.length
    · have hb := two_more hlt hlen
      clear hlen
      rw [if_pos (by simp only [alen]; omega), aGet_ok (by omega) (by simpa using hlt)]
      rw [List.drop_eq_getElem_cons hlt, names_cons, List.drop_drop] at he
      simp only [Out.ok_bind, Int.toNat_natCast]
      cases good with
      | nil =>
        obtain ⟨e1, _⟩ := List.cons.inj he
        rw [e1]
        match x, hx with
        | none, _ => rfl
        | some (.string n), hx =>
          have hn : n ∉ ns := fun hn => hx n hn rfl
          simp only [castString, Out.ok_bind, get_name w hm, if_neg hn]
          rfl
        | some (.byte _), _ => rfl
        | some (.short _), _ => rfl
        | some (.int _), _ => rfl
        | some (.long _), _ => rfl
        | some (.float _), _ => rfl
        | some (.double _), _ => rfl
        | some (.other _), _ => rfl
      | cons y good =>
        obtain ⟨e1, e2⟩ := List.cons.inj he
        obtain ⟨n, hn, hy⟩ := hg y (List.mem_cons_self ..)
        simp only [e1, hy, castString, Out.ok_bind, get_name w hm, if_pos hn, add_two hb]
        exact ih (i + 2) (by omega) e2 (fun x hx => hg x (List.mem_cons_of_mem _ hx))
    · rw [List.drop_eq_nil_of_le (by omega)] at he
      simp [names] at he

theorem checkOptionNames_eq (hash : Bytes → BitVec 64) (limit : Nat) (hlim : limit < 1073741824) (h1 : 1 ≤ limit)
    (options : List (Option Val)) (ns : List Bytes) (hroom : 3 * ns.length ≤ limit) :
    ∃ h, Hash.Wf hash limit h ∧ (∀ k, h.toMap k = if k ∈ ns then some (some (.int 1)) else none) ∧
      checkOptionNames hash limit (some options) (some (ns.map some)) =
        checkLoop hash h options (options.length + 1) 0 := by
  obtain ⟨h, e, w, _, m⟩ := addNames_ok hlim ns 0 (Hash.wf_empty (α := Val) hash h1) (by simp) (by omega)
  refine ⟨h, w, m, ?_⟩
  simp only [checkOptionNames, Hash.new, Hash.empty_ok h1, Out.ok_bind, e]

/-- **C80** (`Fn->check_option_names`): nothing happens if every name in the options is one of the available names, and no
options at all are always fine. -/
theorem check_passes (hash : Bytes → BitVec 64) (limit : Nat) (hlim : limit < 1073741824) (h1 : 1 ≤ limit)
    (ns : List Bytes) (hroom : 3 * ns.length ≤ limit) :
    (∀ available, checkOptionNames hash limit none available = .ok ()) ∧
    ∀ options : List (Option Val), options.length < 2147483647 →
      (∀ x ∈ names options, ∃ n ∈ ns, x = some (.string n)) →
      checkOptionNames hash limit (some options) (some (ns.map some)) = .ok () := by
  refine ⟨fun _ => rfl, fun options hlen hg => ?_⟩
  obtain ⟨h, w, m, e⟩ := checkOptionNames_eq hash limit hlim h1 options ns hroom
  rw [e]
  exact checkLoop_good w m options hlen (options.length + 1) 0 (by omega) (by omega) (by simpa using hg)

/-- **C80** (`Fn->check_option_names`): the first name that is not available throws; the exception names it if it is a
string. -/
theorem check_throws (hash : Bytes → BitVec 64) (limit : Nat) (hlim : limit < 1073741824) (h1 : 1 ≤ limit)
    (ns : List Bytes) (hroom : 3 * ns.length ≤ limit) (options : List (Option Val)) (hlen : options.length < 2147483647)
    (good rest : List (Option Val)) (x : Option Val) (he : names options = good ++ x :: rest)
    (hg : ∀ y ∈ good, ∃ n ∈ ns, y = some (.string n)) (hx : ∀ n ∈ ns, x ≠ some (.string n)) :
    checkOptionNames hash limit (some options) (some (ns.map some)) = .die (complaint x) := by
  obtain ⟨h, w, m, e⟩ := checkOptionNames_eq hash limit hlim h1 options ns hroom
  rw [e]
  exact checkLoop_bad w m options hlen (options.length + 1) 0 (by omega) (by simpa using he) hg hx

/-- **C80** (`Fn->check_option_names`, the list of available names): if options are given, the list of available names
must be defined and so must each name in it; otherwise an exception is thrown, whatever the options are. -/
theorem check_available (hash : Bytes → BitVec 64) (limit : Nat) (hlim : limit < 1073741824) (h1 : 1 ≤ limit)
    (options : List (Option Val)) :
    checkOptionNames hash limit (some options) none = .die msgArrayUndef ∧
    ∀ (ns : List Bytes) (rest : List (Option Bytes)), 3 * ns.length ≤ limit →
      checkOptionNames hash limit (some options) (some (ns.map some ++ none :: rest)) = .die Hash.msgKey := by
  refine ⟨?_, fun ns rest hroom => ?_⟩
  · simp only [checkOptionNames, Hash.new, Hash.empty_ok h1, Out.ok_bind]
  · obtain ⟨h, e, w, _, m⟩ := addNames_ok hlim ns 0 (Hash.wf_empty (α := Val) hash h1) (by simp) (by omega)
    have app : ∀ (l r : List (Option Bytes)) (h h' : Hash Val), addNames hash limit l h = (.ok (), h') →
        addNames hash limit (l ++ r) h = addNames hash limit r h' := by
      intro l r
      induction l with
      | nil => intro h h' e; cases e; rfl
      | cons n l ih =>
        intro h h' e
        simp only [List.cons_append, addNames, Prog.bind_apply] at e ⊢
        generalize hx : Hash.setInt hash limit n 1 h = x at e ⊢
        obtain ⟨o, h2⟩ := x
        cases o with
        | ok u => exact ih h2 h' e
        | die m => simp at e
        | ub => simp at e
    have e2 : addNames hash limit (ns.map some ++ none :: rest) (⟨0, [[]]⟩ : Hash Val) = (.die Hash.msgKey, h) := by
      rw [app _ _ _ _ e]
      rfl
    simp only [checkOptionNames, Hash.new, Hash.empty_ok h1, Out.ok_bind, e2]

/-- **C80** (`Fn->check_option_names` decides): it returns exactly if all names are available, and throws otherwise. -/
theorem check_decides (hash : Bytes → BitVec 64) (limit : Nat) (hlim : limit < 1073741824) (h1 : 1 ≤ limit)
    (ns : List Bytes) (hroom : 3 * ns.length ≤ limit) (options : List (Option Val)) (hlen : options.length < 2147483647) :
    (checkOptionNames hash limit (some options) (some (ns.map some)) = .ok () ↔
      ∀ x ∈ names options, ∃ n ∈ ns, x = some (.string n)) ∧
    (checkOptionNames hash limit (some options) (some (ns.map some)) = .ok () ∨
      ∃ m, checkOptionNames hash limit (some options) (some (ns.map some)) = .die m) := by
  have split : ∀ l : List (Option Val), (∀ x ∈ l, ∃ n ∈ ns, x = some (.string n)) ∨
      ∃ good x rest, l = good ++ x :: rest ∧ (∀ y ∈ good, ∃ n ∈ ns, y = some (.string n)) ∧
        ∀ n ∈ ns, x ≠ some (.string n) := by
    intro l
    induction l with
    | nil => exact .inl (by simp)
    | cons y l ih =>
      by_cases hy : ∃ n ∈ ns, y = some (.string n)
      · rcases ih with h | ⟨good, x, rest, rfl, h2, h3⟩
        · refine .inl fun x hx => ?_
          rcases List.mem_cons.mp hx with rfl | hx
          · exact hy
          · exact h x hx
        · refine .inr ⟨y :: good, x, rest, rfl, fun z hz => ?_, h3⟩
          rcases List.mem_cons.mp hz with rfl | hz
          · exact hy
          · exact h2 z hz
      · exact .inr ⟨[], y, l, rfl, by simp, fun n hn h => hy ⟨n, hn, h⟩⟩
  rcases split (names options) with h | ⟨good, x, rest, he, hg, hx⟩
  · have e := (check_passes hash limit hlim h1 ns hroom).2 options hlen h
    exact ⟨⟨fun _ => h, fun _ => e⟩, .inl e⟩
  · have e := check_throws hash limit hlim h1 ns hroom options hlen good rest x he hg hx
    refine ⟨⟨fun h => ?_, fun h => ?_⟩, .inr ⟨_, e⟩⟩
    · rw [e] at h; cases h
    · obtain ⟨n, hn, h'⟩ := h x (by rw [he]; simp)
      exact absurd h' (hx n hn)

/-! ## sort_options_asc -/

theorem spell_length (ps : List (Bytes × Option Val)) : (spell ps).length = 2 * ps.length := by
  induction ps with
  | nil => rfl
  | cons p ps ih =>
    rw [spell, List.flatMap_cons, List.length_append, ← spell, ih]
    simp only [List.length_cons, List.length_nil]
    omega

theorem spell_append (ps qs : List (Bytes × Option Val)) : spell (ps ++ qs) = spell ps ++ spell qs := by
  simp [spell]

theorem spell_cons (p : Bytes × Option Val) (ps : List (Bytes × Option Val)) :
    spell (p :: ps) = some (.string p.1) :: p.2 :: spell ps := by
  simp [spell]

/-- An array of even length is a list of pairs, or has a first name that is not a string. -/
theorem spell_or (l : List (Option Val)) (h : l.length % 2 = 0) :
    (∃ ps, l = spell ps) ∨ ∃ ps x y rest, l = spell ps ++ x :: y :: rest ∧ ∀ n, x ≠ some (.string n) := by
  match l, h with
  | [], _ => exact .inl ⟨[], rfl⟩
  | [_], h => simp at h
  | x :: y :: rest, h =>
    have hr : rest.length % 2 = 0 := by simp only [List.length_cons] at h; omega
    by_cases hx : ∃ n, x = some (.string n)
    · obtain ⟨n, rfl⟩ := hx
      rcases spell_or rest hr with ⟨ps, e⟩ | ⟨ps, x, z, r, e, hb⟩
      · exact .inl ⟨(n, y) :: ps, by rw [spell_cons, e]⟩
      · exact .inr ⟨(n, y) :: ps, x, z, r, by rw [spell_cons, e]; rfl, hb⟩
    · exact .inr ⟨[], x, y, rest, rfl, fun n h => hx ⟨n, h⟩⟩

theorem get_mid {A B : List β} {c : β} {i : Int} (h : i = A.length) : aGet (A ++ c :: B) i = .ok c := Hash.aGet_mid h

theorem pair_step {limit : Nat} (hlim : limit ≤ 1073741824) (pre : List Pair) (p : Pair) (post : List (Option Val)) (f : Nat)
    {l : ObjList Pair} {rest} (r : ObjList.Rep limit (fun _ => true) l (pre.map some) rest)
    (hroom : 2 * (pre.length + 1) ≤ limit) :
    ∃ l' rest', ObjList.Rep limit (fun _ => true) l' ((pre ++ [p]).map some) rest' ∧
      pairLoop limit (spell pre ++ spell [p] ++ post) (f + 1) (2 * pre.length : Nat) l =
        pairLoop limit (spell pre ++ spell [p] ++ post) f (2 * (pre ++ [p]).length : Nat) l' := by
  have hs := spell_length pre
  have hb : 2 * pre.length + 2 ≤ 2147483647 := by omega
  have hb1 : 2 * pre.length + 1 ≤ 2147483647 := by omega
  obtain ⟨l', rest', e, r'⟩ := FnCallback.push_fits hlim r (x := some p) (fun _ _ => rfl) (by simpa using hroom)
  refine ⟨l', rest', by simpa using r', ?_⟩
  have e0 : spell pre ++ spell [p] ++ post = spell pre ++ some (.string p.1) :: p.2 :: post := by simp [spell]
  have e1 : spell pre ++ some (.string p.1) :: p.2 :: post = (spell pre ++ [some (.string p.1)]) ++ p.2 :: post := by simp
  rw [e0]
  conv => lhs; unfold pairLoop
  have g1 : aGet (spell pre ++ some (.string p.1) :: p.2 :: post) ((2 * pre.length : Nat) : Int) = .ok (some (.string p.1)) :=
    get_mid (by rw [hs])
  have g2 : aGet (spell pre ++ some (.string p.1) :: p.2 :: post) ((2 * pre.length + 1 : Nat) : Int) = .ok p.2 := by
    rw [e1]
    exact get_mid (by simp [hs])
  have hl : ((2 * pre.length : Nat) : Int) < alen (spell pre ++ some (.string p.1) :: p.2 :: post) := by
    simp only [alen, List.length_append, List.length_cons, hs]
    omega
  simp only [if_pos hl, g1, add_one hb1, g2, add_two hb, Prog.lift_ok_bind, Prog.bind_ok e]
  congr 2
  simp only [List.length_append, List.length_singleton]
  omega

theorem pairLoop_part {limit : Nat} (hlim : limit ≤ 1073741824) (ps : List Pair) (pre : List Pair) (post : List (Option Val))
    (f : Nat) {l : ObjList Pair} {rest} (r : ObjList.Rep limit (fun _ => true) l (pre.map some) rest)
    (hroom : 2 * (pre.length + ps.length) ≤ limit) :
    ∃ l' rest', ObjList.Rep limit (fun _ => true) l' ((pre ++ ps).map some) rest' ∧
      pairLoop limit (spell pre ++ spell ps ++ post) (f + ps.length) (2 * pre.length : Nat) l =
        pairLoop limit (spell pre ++ spell ps ++ post) f (2 * (pre ++ ps).length : Nat) l' := by
  induction ps generalizing pre l rest with
  | nil => exact ⟨l, rest, by simpa using r, by simp⟩
  | cons p ps ih =>
    simp only [List.length_cons] at hroom
    obtain ⟨l1, rest1, r1, e1⟩ := pair_step hlim pre p (spell ps ++ post) (f + ps.length) r (by omega)
    obtain ⟨l2, rest2, r2, e2⟩ := ih (pre ++ [p]) r1 (by simp; omega)
    have e0 : spell pre ++ spell (p :: ps) ++ post = spell pre ++ spell [p] ++ (spell ps ++ post) := by
      simp [spell]
    have e3 : spell (pre ++ [p]) ++ spell ps ++ post = spell pre ++ spell [p] ++ (spell ps ++ post) := by
      simp [spell]
    rw [e3] at e2
    refine ⟨l2, rest2, by simpa using r2, ?_⟩
    rw [e0, List.length_cons, ← Nat.add_assoc, e1, e2]
    simp

theorem defined_map (ps : List α) : defined (ps.map some) = some ps := by
  induction ps with
  | nil => rfl
  | cons p ps ih => simp [defined, ih]

theorem new_list {limit : Nat} (hlim : limit ≤ 1073741824) (h4 : 4 ≤ limit) :
    ∃ l rest, ObjList.new limit (fun _ : Pair => true) none = .ok l ∧ ObjList.Rep limit (fun _ : Pair => true) l [] rest := by
  obtain ⟨l, e⟩ := ObjList.new_succeeds (limit := limit) (accept := fun _ : Pair => true) hlim (a := none) (c := -1)
    (by simp) (by simp; omega)
  obtain ⟨k, r, _⟩ := ObjList.new_ok hlim (by simp) e
  exact ⟨l, _, e, r⟩

theorem set_mid {accept : Val → Bool} {A B : List (Option Val)} {c d : Option Val} {i : Int} (h : i = A.length)
    (hd : ∀ v, d = some v → accept v = true) : VM.setElementChecked accept (A ++ c :: B) i d = .ok (A ++ d :: B) := by
  rw [setElementChecked_ok (by omega) (by rw [List.length_append, List.length_cons]; omega) hd]
  rw [h, Int.toNat_natCast]
  simp

theorem writeBack_ok {accept : Val → Bool} (qs pre : List Pair) (old : List (Option Val)) (ho : old.length = 2 * qs.length)
    (hlen : 2 * (pre.length + qs.length) < 2147483646)
    (ha : ∀ q ∈ qs, accept (.string q.1) = true ∧ ∀ v, q.2 = some v → accept v = true) :
    writeBack accept qs (2 * pre.length : Nat) (spell pre ++ old) = (.ok (), spell (pre ++ qs)) := by
  induction qs generalizing pre old with
  | nil =>
    obtain rfl := List.eq_nil_of_length_eq_zero ho
    simp [writeBack]
  | cons q qs ih =>
    match old, ho with
    | x :: y :: old, ho =>
      simp only [List.length_cons] at ho hlen
      have hq := ha q (List.mem_cons_self ..)
      have hs := spell_length pre
      have hb : 2 * pre.length + 2 ≤ 2147483647 := by omega
      have hb1 : 2 * pre.length + 1 ≤ 2147483647 := by omega
      have g1 : VM.setElementChecked accept (spell pre ++ x :: y :: old) ((2 * pre.length : Nat) : Int) (some (.string q.1)) =
          .ok (spell pre ++ some (.string q.1) :: y :: old) :=
        set_mid (by rw [hs]) (by rintro _ ⟨⟩; exact hq.1)
      have g2 : VM.setElementChecked accept (spell pre ++ some (.string q.1) :: y :: old) ((2 * pre.length + 1 : Nat) : Int) q.2 =
          .ok (spell pre ++ [some (.string q.1)] ++ q.2 :: old) := by
        rw [show spell pre ++ some (.string q.1) :: y :: old = (spell pre ++ [some (.string q.1)]) ++ y :: old by simp]
        exact set_mid (by simp [hs]) hq.2
      unfold writeBack
      simp only [Prog.get_bind_apply, g1, g2, Prog.lift_ok_bind, Prog.set_bind_apply, add_one hb1, add_two hb]
      have := ih (pre ++ [q]) old (by omega) (by simp; omega) (fun q hq => ha q (List.mem_cons_of_mem _ hq))
      rw [show ((2 * pre.length + 2 : Nat) : Int) = (2 * (pre ++ [q]).length : Nat) by simp; omega]
      rw [show spell pre ++ [some (.string q.1)] ++ q.2 :: old = spell (pre ++ [q]) ++ old by simp [spell]]
      rw [this]
      simp

theorem lexLt_of_before {a b : Bytes} (h : Before a b) : VM.LexLt a b := by
  induction h with
  | nil => exact .nil
  | head h => exact .head h
  | tail _ ih => exact .tail ih

/-- How the comparator ranks two pairs. -/
def pairRank (x y : Pair) : Int := MSort.strRank (some x.1) (some y.1)

theorem preorder_pair : Spec.Sort.Preorder pairRank :=
  ⟨fun x y => MSort.preorder_str.total _ _, fun x y z => MSort.preorder_str.trans _ _ _⟩

theorem same_name (n : Bytes) (v : Option Val) (x : Pair) : Spec.Sort.same pairRank (n, v) x = decide (x.1 = n) := by
  unfold Spec.Sort.same pairRank
  rw [decide_eq_decide, MSort.strRank_le, MSort.strRank_le]
  constructor
  · rintro ⟨h1, h2⟩
    rcases VM.stringCmp_spec (some x.1) (some n) with ⟨_, h⟩ | ⟨_, h⟩ | ⟨_, h⟩
    · exact absurd h h1
    · exact Option.some.inj h
    · exact absurd h h2
  · rintro rfl
    exact ⟨VM.strLt_irrefl _, VM.strLt_irrefl _⟩

/-- **C80** (`Sort->sort_options_asc`): the pairs are put in the order of their names, compared byte by byte, and pairs of the
same name keep their order. -/
theorem sort_options (limit : Nat) (hlim : limit < 1073741824) (h4 : 4 ≤ limit) (accept : Val → Bool)
    (ps : List (Bytes × Option Val)) (hroom : 2 * ps.length ≤ limit)
    (ha : ∀ v, some v ∈ spell ps → accept v = true) :
    ∃ qs, InOrder ps qs ∧ sortOptionsAsc limit accept (some (spell ps)) = (.ok (), spell qs) := by
  have hs := spell_length ps
  obtain ⟨l, rest, e, r⟩ := new_list (limit := limit) (by omega) h4
  obtain ⟨l', rest', r', e'⟩ := pairLoop_part (limit := limit) (by omega) ps [] [] (ps.length + 1) (by simpa using r) (by simpa using hroom)
  have hc : MSort.count ps 0 (-1) = ps.length := by simp [MSort.count]
  obtain ⟨qs, env, es, st⟩ := MSort.c10_stable_sort limit ([], none) pairCmp pairRank
    (fun _ x y => by show VM.stringCmp (some x.1) (some y.1) = _; exact MSort.strRank_ok _ _) preorder_pair ps () 0 (-1) (by omega) (by unfold MSort.InRange; omega) (by omega)
  simp only [hc, Int.toNat_zero, List.take_zero, List.nil_append, Int.zero_add, Int.toNat_natCast, List.drop_length,
    List.append_nil, List.drop_zero, List.take_length] at es st
  have hq : qs.length = ps.length := st.perm.length_eq
  refine ⟨qs, ⟨st.perm, ?_, ?_⟩, ?_⟩
  · refine st.sorted.imp ?_
    intro p q h hb
    exact (MSort.strRank_le _ _).mp h (lexLt_of_before hb)
  · intro n
    have := st.stable (n, none)
    rw [List.filter_congr (fun x _ => same_name n none x), List.filter_congr (fun x _ => same_name n none x)] at this
    exact this
  · unfold sortOptionsAsc
    simp only [hs]
    rw [if_neg (by omega), e]
    have ep : pairLoop limit (spell ps) (2 * ps.length + 1) 0 l = (.ok (), l') := by
      have e2 : pairLoop limit (spell ps) (2 * ps.length + 1) 0 l =
          pairLoop limit (spell ps) (ps.length + 1) (2 * ps.length : Nat) l' := by
        have := e'
        simp only [spell, List.flatMap_nil, List.nil_append, List.append_nil, List.length_nil, Nat.mul_zero] at this
        rw [show 2 * ps.length + 1 = ps.length + 1 + ps.length by omega]
        exact this
      rw [e2]
      unfold pairLoop
      rw [if_neg (by simp only [alen, hs]; omega)]
      rfl
    simp only [Out.ok_bind]
    rw [Prog.bind_ok ep, ObjList.toArray_ok (by omega) r']
    simp only [List.nil_append, defined_map, es]
    have := writeBack_ok (accept := accept) qs [] (spell ps) (by omega) (by simp; omega) (by
      intro q hq
      have hm : q ∈ ps := st.perm.mem_iff.mp hq
      refine ⟨ha _ ?_, fun v hv => ha v ?_⟩
      · exact List.mem_flatMap.mpr ⟨q, hm, by simp⟩
      · exact List.mem_flatMap.mpr ⟨q, hm, by simp [hv]⟩)
    simpa [spell] using this

/-- What `sort_options_asc` says about a name that is not a string. -/
def keyComplaint : Option Val → String
  | none => msgKeyUndef
  | some _ => msgKeyType

/-- **C80** (`Sort->sort_options_asc`, exceptions): undefined options, an odd length, and a name that is undefined or not a
string throw, and the array is not changed. -/
theorem sort_options_throws (limit : Nat) (hlim : limit < 1073741824) (h4 : 4 ≤ limit) (accept : Val → Bool) :
    sortOptionsAsc limit accept none = (.die msgOptions, []) ∧
    (∀ options, options.length % 2 = 1 → sortOptionsAsc limit accept (some options) = (.die msgEven, options)) ∧
    ∀ ps x y rest, rest.length % 2 = 0 → 2 * ps.length ≤ limit → (∀ n, x ≠ some (.string n)) →
      sortOptionsAsc limit accept (some (spell ps ++ x :: y :: rest)) =
        (.die (keyComplaint x), spell ps ++ x :: y :: rest) := by
  refine ⟨rfl, ?_, ?_⟩
  · intro options h
    simp [sortOptionsAsc, h]
  · intro ps x y rest hr hroom hx
    have hs := spell_length ps
    obtain ⟨l, rst, e, r⟩ := new_list (limit := limit) (by omega) h4
    obtain ⟨l', rest', r', e'⟩ := pairLoop_part (limit := limit) (by omega) ps [] (x :: y :: rest) (ps.length + rest.length + 3)
      (by simpa using r) (by simpa using hroom)
    have hlen : (spell ps ++ x :: y :: rest).length = 2 * ps.length + rest.length + 2 := by
      simp only [List.length_append, List.length_cons, hs]; omega
    have ep : pairLoop limit (spell ps ++ x :: y :: rest) (2 * ps.length + rest.length + 2 + 1) 0 l =
        (.die (keyComplaint x), l') := by
      have e2 : pairLoop limit (spell ps ++ x :: y :: rest) (2 * ps.length + rest.length + 2 + 1) 0 l =
          pairLoop limit (spell ps ++ x :: y :: rest) (ps.length + rest.length + 3) (2 * ps.length : Nat) l' := by
        have := e'
        simp only [spell, List.flatMap_nil, List.nil_append, List.length_nil, Nat.mul_zero] at this
        rw [show 2 * ps.length + rest.length + 2 + 1 = ps.length + rest.length + 3 + ps.length by omega]
        exact this
      rw [e2]
      unfold pairLoop
      rw [if_pos (by simp only [alen, hlen]; omega), get_mid (by rw [hs])]
      simp only [Prog.lift_ok_bind]
      match x, hx with
      | none, _ => rfl
      | some (.string n), hx => exact absurd rfl (hx n)
      | some (.byte _), _ => rfl
      | some (.short _), _ => rfl
      | some (.int _), _ => rfl
      | some (.long _), _ => rfl
      | some (.float _), _ => rfl
      | some (.double _), _ => rfl
      | some (.other _), _ => rfl
    unfold sortOptionsAsc
    simp only [hlen]
    rw [if_neg (by omega), e]
    simp only [Out.ok_bind]
    rw [Prog.bind_die ep]

/-- **C80** (`Sort->sort_options_asc` has no other outcomes): every array of even length is one of those above. -/
theorem sort_options_cases (options : List (Option Val)) (h : options.length % 2 = 0) :
    (∃ ps, options = spell ps) ∨
    ∃ ps x y rest, options = spell ps ++ x :: y :: rest ∧ rest.length % 2 = 0 ∧ ∀ n, x ≠ some (.string n) := by
  rcases spell_or options h with h' | ⟨ps, x, y, rest, e, hx⟩
  · exact .inl h'
  · refine .inr ⟨ps, x, y, rest, e, ?_, hx⟩
    rw [e] at h
    simp only [List.length_append, List.length_cons, spell_length] at h
    omega

/-! ## Non-vacuity -/

def sampleHash : Bytes → BitVec 64 := fun b => BitVec.ofNat 64 (b.foldl (fun n x => 31 * n + x.toNat) 7)

/-- `{b => 1, a => undef, b => 2}` -/
def sampleOptions : List (Option Val) :=
  [some (.string [98]), some (.int 1), some (.string [97]), none, some (.string [98]), some (.int 2)]

example : sampleOptions = spell [([98], some (.int 1)), ([97], none), ([98], some (.int 2))] := rfl
example : checkOptionNames sampleHash 100 (some sampleOptions) (some [some [97], some [98], some [99]]) = .ok () := by
  decide +kernel
example : checkOptionNames sampleHash 100 (some sampleOptions) (some [some [98], some [99]]) =
    .die "The \"a\" option is not available." := by decide +kernel
example : checkOptionNames sampleHash 100 (some sampleOptions) (some [some [98], none]) = .die Hash.msgKey := by
  decide +kernel
example : mergeOptions 100 (some sampleOptions) none = .ok sampleOptions := by decide +kernel
example : mergeOptions 100 (some sampleOptions) (some [none]) = .die msgEven2 := by decide +kernel
example : sortOptionsAsc 100 (fun _ => true) (some sampleOptions) =
    (.ok (), spell [([97], none), ([98], some (.int 1)), ([98], some (.int 2))]) := by decide +kernel
example : sortOptionsAsc 100 (fun _ => true) (some [some (.string [98]), none, some (.int 1), none]) =
    (.die msgKeyType, [some (.string [98]), none, some (.int 1), none]) := by decide +kernel

end SPVM.Options
