import Verif.Spec.Types
/-!
# Lemmas about types
-/
set_option linter.unusedSimpArgs false
namespace SPVM
namespace Types
open VM (Bytes)
open Spec.Types

theorem cat_eq {w : World} {i : Nat} {b : BT} (h : w[i]? = some b) : cat w i = b.cat := by simp [cat, h]

theorem hasCat_iff {w : World} {i : Nat} {k : Cat} (hk : k ≠ .unknown) : HasCat w i k ↔ cat w i = k := by
  unfold HasCat cat
  cases h : w[i]? with
  | none => simp [Ne.symm hk]
  | some b => simp

theorem countP_lt {p q : Nat → Bool} {l : List Nat} (hpq : ∀ x ∈ l, p x = true → q x = true)
    (x : Nat) (hx : x ∈ l) (hq : q x = true) (hp : p x = false) : l.countP p < l.countP q := by
  induction l with
  | nil => simp at hx
  | cons a l ih =>
    have hmono : l.countP p ≤ l.countP q := List.countP_mono_left (fun y hy h => hpq y (List.mem_cons_of_mem _ hy) h)
    simp only [List.countP_cons]
    rcases List.mem_cons.1 hx with rfl | hx
    · simp [hq, hp]; omega
    · have := ih (fun y hy h => hpq y (List.mem_cons_of_mem _ hy) h) hx
      have h2 := hpq a (List.mem_cons_self ..)
      by_cases ha : p a = true
      · simp [ha, h2 ha]; omega
      · simp [ha]; split <;> omega

open Classical in
/-- The number of super classes. -/
noncomputable def rank (w : World) (c : Nat) : Nat := (List.range w.length).countP fun a => decide (Ancestor w a c)

theorem parent_lt {w : World} {p c : Nat} (h : Parent w p c) : p < w.length := by
  obtain ⟨bc, bp, h1, h2, h3⟩ := h
  exact (List.getElem?_eq_some_iff.1 h2).1

theorem ancestor_trans {w : World} {a b c : Nat} (h1 : Ancestor w a b) (h2 : Ancestor w b c) : Ancestor w a c := by
  induction h2 with
  | parent h => exact .up h h1
  | up h _ ih => exact .up h (ih h1)

theorem rank_lt {w : World} (hw : Wf w) {p c : Nat} (h : Parent w p c) : rank w p < rank w c := by
  unfold rank
  refine countP_lt (fun x _ hx => ?_) p (List.mem_range.2 (parent_lt h)) ?_ ?_
  · simp only [decide_eq_true_eq] at hx ⊢
    exact .up h hx
  · simpa using Ancestor.parent h
  · simpa using hw.acyclic p

theorem lookup_some {w : World} {name : Bytes} {i : Nat} (h : lookup w name = some i) :
    ∃ b, w[i]? = some b ∧ b.name = name := by
  unfold lookup at h
  rw [List.findIdx?_eq_some_iff_getElem] at h
  obtain ⟨h1, h2, _⟩ := h
  exact ⟨w[i], by simp [h1], by simpa using h2⟩

theorem lookup_eq {w : World} (hw : Wf w) {i : Nat} {b : BT} (h : w[i]? = some b) : lookup w b.name = some i := by
  cases hl : lookup w b.name with
  | none =>
    unfold lookup at hl
    rw [List.findIdx?_eq_none_iff] at hl
    have := hl b (List.mem_of_getElem? h)
    simp at this
  | some j =>
    obtain ⟨b', h1, h2⟩ := lookup_some hl
    rw [hw.names j i b' b h1 h h2]

theorem parent_iff {w : World} (hw : Wf w) {p c : Nat} : parent w c = some p ↔ Parent w p c := by
  unfold parent Parent
  constructor
  · intro h
    cases hc : w[c]? with
    | none => simp [hc] at h
    | some b =>
      simp only [hc, Option.bind_some] at h
      cases hb : b.parentName with
      | none => simp [hb] at h
      | some n =>
        simp only [hb, Option.bind_some] at h
        obtain ⟨b', h1, h2⟩ := lookup_some h
        exact ⟨b, b', rfl, h1, by rw [hb, h2]⟩
  · rintro ⟨bc, bp, h1, h2, h3⟩
    simp [h1, h3, lookup_eq hw h2]

theorem parent_none {w : World} (hw : Wf w) {c : Nat} (h : parent w c = none) {b : BT} (hc : w[c]? = some b) :
    b.parentName = none := by
  cases hb : b.parentName with
  | none => rfl
  | some n =>
    obtain ⟨_, q, hq, _⟩ := hw.parent c b n hc hb
    rw [(parent_iff hw).2 hq] at h
    cases h

theorem parent_unique {w : World} (hw : Wf w) {p q c : Nat} (h1 : Parent w p c) (h2 : Parent w q c) : p = q := by
  have := (parent_iff hw).2 h1
  rw [(parent_iff hw).2 h2] at this
  cases this; rfl

/-! ## Super classes -/

theorem superLoop_ok {w : World} (hw : Wf w) {d : Nat} {bd : BT} (hd : w[d]? = some bd) (c : Nat) (bc : BT) (hc : w[c]? = some bc)
    (n : Nat) (hn : rank w c < n) :
    ∃ b, superLoop w bd.name n bc.parentName = .ok b ∧ (b = true ↔ Ancestor w d c) := by
  induction n generalizing c bc with
  | zero => omega
  | succ n ih =>
    cases hp : bc.parentName with
    | none =>
      refine ⟨false, rfl, by simp, ?_⟩
      intro h
      exfalso
      cases h with
      | parent h => obtain ⟨x, y, h1, h2, h3⟩ := h; rw [hc] at h1; cases h1; rw [hp] at h3; cases h3
      | up h _ => obtain ⟨x, y, h1, h2, h3⟩ := h; rw [hc] at h1; cases h1; rw [hp] at h3; cases h3
    | some pn =>
      obtain ⟨_, q, hq, _⟩ := hw.parent c bc pn hc hp
      have hr := rank_lt hw hq
      obtain ⟨x, bq, h1, h2, h3⟩ := hq
      rw [hc] at h1; cases h1
      rw [hp] at h3; cases h3
      have hq' : Parent w q c := ⟨bc, bq, hc, h2, hp⟩
      simp only [superLoop]
      by_cases he : bd.name = bq.name
      · rw [if_pos he]
        have := hw.names d q bd bq hd h2 he
        subst this
        exact ⟨true, rfl, fun _ => .parent hq', fun _ => rfl⟩
      · rw [if_neg he]
        simp only [lookup_eq hw h2, h2, Option.bind_some]
        obtain ⟨b, e1, e2⟩ := ih q bq h2 (by omega)
        refine ⟨b, e1, ?_⟩
        rw [e2]
        constructor
        · exact fun h => .up hq' h
        · intro h
          cases h with
          | parent h =>
            have := parent_unique hw h hq'
            subst this
            rw [hd] at h2; cases h2
            exact absurd rfl he
          | up h h' =>
            have := parent_unique hw h hq'
            subst this; exact h'

theorem isSuperClass_ok {w : World} (hw : Wf w) (d s : Nat) (n : Nat) (hn : rank w s < n) :
    ∃ b, isSuperClass w n d s = .ok b ∧ (b = true ↔ HasCat w d .cls ∧ HasCat w s .cls ∧ Ancestor w d s) := by
  unfold isSuperClass
  rw [hasCat_iff (by simp), hasCat_iff (by simp)]
  by_cases h1 : cat w d = .cls
  · rw [if_neg (by simpa using h1)]
    by_cases h2 : cat w s = .cls
    · rw [if_neg (by simpa using h2)]
      obtain ⟨bd, hd, _⟩ := (hasCat_iff (w := w) (i := d) (k := .cls) (by simp)).2 h1
      obtain ⟨bs, hs, _⟩ := (hasCat_iff (w := w) (i := s) (k := .cls) (by simp)).2 h2
      obtain ⟨b, e1, e2⟩ := superLoop_ok hw hd s bs hs n hn
      exact ⟨b, by simpa [hd, hs] using e1, by simp [h1, h2, e2]⟩
    · rw [if_pos h2]; exact ⟨false, rfl, by simp [h2]⟩
  · rw [if_pos h1]; exact ⟨false, rfl, by simp [h1]⟩

/-- More fuel does not change an answer. -/
theorem superLoop_mono {w : World} {d : Bytes} {n m : Nat} (h : n ≤ m) {p : Option Bytes} {b : Bool}
    (e : superLoop w d n p = .ok b) : superLoop w d m p = .ok b := by
  induction n generalizing m p with
  | zero => simp [superLoop] at e
  | succ n ih =>
    obtain ⟨m, rfl⟩ : ∃ k, m = k + 1 := ⟨m - 1, by omega⟩
    cases p with
    | none => exact e
    | some p =>
      simp only [superLoop] at e ⊢
      split
      · rename_i hd; rwa [if_pos hd] at e
      · rename_i hd
        rw [if_neg hd] at e
        cases hl : lookup w p with
        | none => rw [hl] at e; cases e
        | some id => rw [hl] at e; exact ih (by omega) e

theorem isSuperClass_mono {w : World} {n m : Nat} (h : n ≤ m) {d s : Nat} {b : Bool}
    (e : isSuperClass w n d s = .ok b) : isSuperClass w m d s = .ok b := by
  unfold isSuperClass at *
  split
  · rename_i h1; rwa [if_pos h1] at e
  · rename_i h1
    rw [if_neg h1] at e
    split
    · rename_i h2; rwa [if_pos h2] at e
    · rename_i h2; rw [if_neg h2] at e; exact superLoop_mono h e

theorem isSuperClass_true {w : World} (hw : Wf w) {d s n : Nat} (e : isSuperClass w n d s = .ok true) :
    HasCat w d .cls ∧ HasCat w s .cls ∧ Ancestor w d s := by
  obtain ⟨b, e1, e2⟩ := isSuperClass_ok hw d s (n + rank w s + 1) (by omega)
  rw [isSuperClass_mono (by omega) e] at e1
  cases e1
  exact e2.1 rfl

/-! ## Methods -/

theorem find_name {ms : List Method} {name : Bytes} {m : Method} (hn : (ms.map Method.name).Nodup) :
    ms.find? (fun m => m.name == name) = some m ↔ m ∈ ms ∧ m.name = name := by
  constructor
  · intro h
    exact ⟨List.mem_of_find?_eq_some h, by simpa using List.find?_some h⟩
  · rintro ⟨h1, h2⟩
    induction ms with
    | nil => simp at h1
    | cons a ms ih =>
      simp only [List.map_cons, List.nodup_cons] at hn
      rw [List.find?_cons]
      by_cases ha : a.name = name
      · simp only [ha, beq_self_eq_true]
        rcases List.mem_cons.1 h1 with rfl | h1
        · rfl
        · exact absurd (List.mem_map.2 ⟨m, h1, by rw [h2, ha]⟩) hn.1
      · have : (a.name == name) = false := by simpa using ha
        simp only [this]
        rcases List.mem_cons.1 h1 with rfl | h1
        · exact absurd h2 ha
        · exact ih hn.2 h1

theorem find_name_none {ms : List Method} {name : Bytes} :
    ms.find? (fun m => m.name == name) = none ↔ ∀ m ∈ ms, m.name ≠ name := by
  simp

theorem resolves_lt {w : World} {name : Bytes} {c o : Nat} {m : Method} (h : Resolves w name c o m) :
    ∃ b, w[c]? = some b := by
  cases h with
  | here h _ _ => exact ⟨_, h⟩
  | up h _ _ _ => exact ⟨_, h⟩

theorem resolves_unique {w : World} (hw : Wf w) {name : Bytes} {c o o' : Nat} {m m' : Method}
    (h : Resolves w name c o m) (h' : Resolves w name c o' m') : o = o' ∧ m = m' := by
  induction h with
  | here h1 h2 h3 =>
    cases h' with
    | here k1 k2 k3 =>
      rw [h1] at k1; cases k1
      have e1 := (find_name (hw.methods _ _ h1)).2 ⟨h2, h3⟩
      have e2 := (find_name (hw.methods _ _ h1)).2 ⟨k2, k3⟩
      rw [e1] at e2; cases e2
      exact ⟨rfl, rfl⟩
    | up k1 k2 _ _ => rw [h1] at k1; cases k1; exact absurd h3 (k2 _ h2)
  | up h1 h2 h3 _ ih =>
    cases h' with
    | here k1 k2 k3 => rw [h1] at k1; cases k1; exact absurd k3 (h2 _ k2)
    | up k1 k2 k3 k4 =>
      have := parent_unique hw h3 k3
      subst this
      exact ih k4

theorem findLoop_ok {w : World} (hw : Wf w) (name : Bytes) (c : Nat) (b : BT) (hc : w[c]? = some b) (n : Nat)
    (hn : rank w c + 1 < n) :
    ∃ r, findLoop w name n (some c) = .ok r ∧ ∀ m, r = some m ↔ ∃ o, Resolves w name c o m := by
  induction n generalizing c b with
  | zero => omega
  | succ n ih =>
    simp only [findLoop, method, hc, Option.bind_some]
    cases hf : b.methods.find? (fun m => m.name == name) with
    | some m =>
      refine ⟨some m, rfl, fun m' => ⟨?_, ?_⟩⟩
      · rintro h; cases h
        have := (find_name (hw.methods _ _ hc)).1 hf
        exact ⟨c, .here hc this.1 this.2⟩
      · rintro ⟨o, h⟩
        have := (find_name (hw.methods _ _ hc)).1 hf
        rw [(resolves_unique hw (.here hc this.1 this.2) h).2]
    | none =>
      rw [find_name_none] at hf
      cases hp : parent w c with
      | none =>
        obtain ⟨n, rfl⟩ : ∃ k, n = k + 1 := ⟨n - 1, by omega⟩
        refine ⟨none, rfl, fun m => ⟨by simp, ?_⟩⟩
        rintro ⟨o, h⟩
        cases h with
        | here k1 k2 k3 => rw [hc] at k1; cases k1; exact absurd k3 (hf _ k2)
        | up _ _ k3 _ => rw [(parent_iff hw).2 k3] at hp; cases hp
      | some p =>
        have hp' := (parent_iff hw).1 hp
        have hr := rank_lt hw hp'
        obtain ⟨_, bp, _, h2, _⟩ := hp'
        obtain ⟨r, e1, e2⟩ := ih p bp h2 (by omega)
        refine ⟨r, e1, fun m => ?_⟩
        rw [e2]
        constructor
        · rintro ⟨o, h⟩; exact ⟨o, .up hc hf ((parent_iff hw).1 hp) h⟩
        · rintro ⟨o, h⟩
          cases h with
          | here k1 k2 k3 => rw [hc] at k1; cases k1; exact absurd k3 (hf _ k2)
          | up _ _ k3 k4 => rw [(parent_iff hw).2 k3] at hp; cases hp; exact ⟨o, k4⟩

theorem findLoop_mono {w : World} {name : Bytes} {n m : Nat} (h : n ≤ m) {c : Option Nat} {r : Option Method}
    (e : findLoop w name n c = .ok r) : findLoop w name m c = .ok r := by
  induction n generalizing m c with
  | zero => simp [findLoop] at e
  | succ n ih =>
    obtain ⟨m, rfl⟩ : ∃ k, m = k + 1 := ⟨m - 1, by omega⟩
    cases c with
    | none => exact e
    | some c =>
      simp only [findLoop] at e ⊢
      cases hm : method w c name with
      | some x => rw [hm] at e; exact e
      | none => rw [hm] at e; exact ih (by omega) e

theorem findLoop_some {w : World} (hw : Wf w) {name : Bytes} {c n : Nat} {b : BT} (hc : w[c]? = some b) {r : Option Method}
    (e : findLoop w name n (some c) = .ok r) (m : Method) : r = some m ↔ ∃ o, Resolves w name c o m := by
  obtain ⟨r', e1, e2⟩ := findLoop_ok hw name c b hc (n + rank w c + 2) (by omega)
  rw [findLoop_mono (by omega) e] at e1
  cases e1
  exact e2 m

/-! ## Loops -/

theorem andAll_true {f : α → Out Bool} {l : List α} : andAll f l = .ok true ↔ ∀ a ∈ l, f a = .ok true := by
  induction l with
  | nil => simp [andAll]
  | cons a l ih =>
    simp only [andAll, List.mem_cons, forall_eq_or_imp]
    cases hf : f a with
    | ok b => cases b <;> simp [ih]
    | die m => simp
    | ub => simp

theorem andAll_mono {f g : α → Out Bool} {l : List α} (h : ∀ a ∈ l, ∀ b, f a = .ok b → g a = .ok b) {b : Bool}
    (e : andAll f l = .ok b) : andAll g l = .ok b := by
  induction l with
  | nil => exact e
  | cons a l ih =>
    simp only [andAll] at e ⊢
    cases hf : f a with
    | ok c =>
      rw [hf] at e
      rw [h a (by simp) c hf]
      simp only [Out.ok_bind] at e ⊢
      cases c with
      | false => exact e
      | true => exact ih (fun x hx => h x (by simp [hx])) (by simpa using e)
    | die m => rw [hf] at e; cases e
    | ub => rw [hf] at e; cases e

end Types
end SPVM
