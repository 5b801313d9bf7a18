import Verif.Spec.Access
import Verif.Lemmas.Types
/-! # Lemmas for access control -/
namespace SPVM
namespace Access
open Spec.Access
open Spec.Types (HasCat Parent Ancestor)
open Types (rank rank_lt isSuperClass isSuperClass_ok parent_iff parent_none lookup lookup_eq lookup_some BT)
open VM (Bytes)

theorem rank_le (w : Types.World) (c : Nat) : rank w c ≤ w.length := by
  unfold rank
  exact Nat.le_trans List.countP_le_length (by simp)

theorem name_inj {P : Classes} (hw : Spec.Access.Wf P) {a b : Nat} (ha : ∃ x, P.w[a]? = some x) (hb : ∃ x, P.w[b]? = some x) :
    P.name a = P.name b ↔ a = b := by
  obtain ⟨x, hx⟩ := ha
  obtain ⟨y, hy⟩ := hb
  constructor
  · intro h
    simp only [Classes.name, hx, hy, Option.map_some, Option.getD_some] at h
    exact hw.types.names a b x y hx hy h
  · intro h; rw [h]

theorem named_name {P : Classes} {i : Nat} {b : BT} (h : P.w[i]? = some b) : P.name i = b.name := by
  simp [Classes.name, h]

theorem ancestor_cls {P : Classes} (hw : Spec.Access.Wf P) {a c : Nat} (h : Ancestor P.w a c) :
    HasCat P.w a .cls ∧ HasCat P.w c .cls := by
  have par : ∀ {p c : Nat}, Parent P.w p c → HasCat P.w p .cls ∧ HasCat P.w c .cls := by
    intro p c hp
    have hp' := hp
    obtain ⟨bc, bp, h1, h2, h3⟩ := hp
    obtain ⟨k1, q, k2, k3⟩ := hw.types.parent c bc bp.name h1 h3
    rw [Types.parent_unique hw.types hp' k2]
    exact ⟨k3, k1⟩
  induction h with
  | parent h => exact par h
  | up h _ ih => exact ⟨ih.1, (par h).2⟩

theorem outmost_getD {P : Classes} (hw : Spec.Access.Wf P) {cur o : Nat} (h : Outmost P cur o) (hc : ∃ x, P.w[cur]? = some x) :
    (P.info cur).outmost.getD cur = o ∧ (∃ x, P.w[o]? = some x) := by
  cases h with
  | self h => rw [h]; exact ⟨rfl, hc⟩
  | anon h => rw [h]; exact ⟨rfl, (hw.outmost _ _ h).1⟩

theorem outmost_exists (P : Classes) (cur : Nat) : Outmost P cur ((P.info cur).outmost.getD cur) := by
  cases h : (P.info cur).outmost with
  | none => exact .self h
  | some o => exact .anon h

theorem outmost_unique {P : Classes} {cur o o' : Nat} (h : Outmost P cur o) (h' : Outmost P cur o') : o = o' := by
  cases h with
  | self h => cases h' with
    | self _ => rfl
    | anon h2 => rw [h] at h2; cases h2
  | anon h => cases h' with
    | self h2 => rw [h] at h2; cases h2
    | anon h2 => rw [h] at h2; cases h2; rfl

theorem canAccess_ok {P : Classes} (hw : Spec.Access.Wf P) {n cur o d : Nat} (hn : P.w.length < n) (ho : Outmost P cur o)
    (hc : ∃ x, P.w[cur]? = some x) (hd : ∃ x, P.w[d]? = some x) (a : Acc) (ipf : Bool) :
    ∃ b, canAccess P n cur d a ipf = .ok b ∧
      (b = true ↔ a = .pub ∨ (a = .prot ∧ (o = d ∨ Ancestor P.w d o)) ∨ (a = .priv ∧ ipf = false ∧ o = d)) := by
  obtain ⟨e, he⟩ := outmost_getD hw ho hc
  unfold canAccess
  rw [e]
  cases a with
  | pub => exact ⟨true, rfl, by simp⟩
  | priv =>
    cases ipf with
    | true => exact ⟨false, rfl, by simp⟩
    | false =>
      refine ⟨_, rfl, ?_⟩
      simp [name_inj hw he hd]
  | prot =>
    show ∃ b, (if P.name o = P.name d then Out.ok true else isSuperClass P.w n d o) = .ok b ∧ _
    by_cases h : P.name o = P.name d
    · rw [if_pos h]
      exact ⟨true, rfl, by simp [(name_inj hw he hd).1 h]⟩
    · rw [if_neg h]
      obtain ⟨b, e1, e2⟩ := isSuperClass_ok hw.types d o n (Nat.lt_of_le_of_lt (rank_le _ _) hn)
      refine ⟨b, e1, ?_⟩
      rw [e2]
      have hne : o ≠ d := fun k => h ((name_inj hw he hd).2 k)
      constructor
      · intro k; exact .inr (.inl ⟨rfl, .inr k.2.2⟩)
      · intro k
        rcases k with k | ⟨_, k | k⟩ | ⟨k, _⟩
        · cases k
        · exact absurd k hne
        · exact ⟨(ancestor_cls hw k).1, (ancestor_cls hw k).2, k⟩
        · cases k

theorem isAllowed_iff {P : Classes} (hw : Spec.Access.Wf P) {cur d : Nat}
    (hc : ∃ x, P.w[cur]? = some x) (hd : ∃ x, P.w[d]? = some x) (ipf : Bool) :
    isAllowed P cur d ipf = true ↔ (ipf = false ∧ cur = d) ∨ Allows P d cur := by
  have hal : ((P.info d).allows.any (fun x => P.name cur == x)) = true ↔ Allows P d cur := by
    obtain ⟨x, hx⟩ := hc
    rw [List.any_eq_true]
    constructor
    · rintro ⟨y, hy, e⟩
      have e' : P.name cur = y := by simpa using e
      exact ⟨y, ⟨x, hx, by rw [← named_name hx]; exact e'⟩, hy⟩
    · rintro ⟨y, ⟨b, hb, e⟩, hy⟩
      exact ⟨y, hy, by rw [named_name hb, e]; simp⟩
  unfold isAllowed
  by_cases h : (!ipf && P.name cur == P.name d) = true
  · rw [if_pos h]
    simp only [Bool.and_eq_true, Bool.not_eq_true', beq_iff_eq] at h
    exact ⟨fun _ => .inl ⟨h.1, (name_inj hw hc hd).1 h.2⟩, fun _ => rfl⟩
  · rw [if_neg h, hal]
    constructor
    · exact .inr
    · rintro (⟨k1, k2⟩ | k)
      · exact absurd (by rw [k1, k2]; simp) h
      · exact k

/-- What the two nested tests accept. -/
def Core (P : Classes) (cur o d : Nat) (a : Acc) (ipf : Bool) : Prop :=
  a = .pub ∨ (a = .prot ∧ (o = d ∨ Ancestor P.w d o)) ∨ (a = .priv ∧ ipf = false ∧ o = d) ∨ (ipf = false ∧ cur = d) ∨ Allows P d cur

theorem check_ok {P : Classes} (hw : Spec.Access.Wf P) {n cur o d : Nat} (hn : P.w.length < n) (ho : Outmost P cur o)
    (hc : ∃ x, P.w[cur]? = some x) (hd : ∃ x, P.w[d]? = some x) (a : Acc) (ipf : Bool) :
    (Core P cur o d a ipf → check P n cur d a ipf = .ok ()) ∧ (¬ Core P cur o d a ipf → check P n cur d a ipf = .die err) := by
  obtain ⟨b, e1, e2⟩ := canAccess_ok hw hn ho hc hd a ipf
  have e3 := isAllowed_iff hw hc hd ipf
  have hcore : Core P cur o d a ipf ↔ b = true ∨ isAllowed P cur d ipf = true := by
    rw [e2, e3, Core]
    constructor
    · rintro (h | h | h | h | h)
      · exact .inl (.inl h)
      · exact .inl (.inr (.inl h))
      · exact .inl (.inr (.inr h))
      · exact .inr (.inl h)
      · exact .inr (.inr h)
    · rintro ((h | h | h) | h | h)
      · exact .inl h
      · exact .inr (.inl h)
      · exact .inr (.inr (.inl h))
      · exact .inr (.inr (.inr (.inl h)))
      · exact .inr (.inr (.inr (.inr h)))
  unfold check
  rw [e1]
  show (Core P cur o d a ipf → (if b = true then Out.ok () else if isAllowed P cur d ipf = true then Out.ok () else Out.die err) = Out.ok ()) ∧
    (¬ Core P cur o d a ipf → (if b = true then Out.ok () else if isAllowed P cur d ipf = true then Out.ok () else Out.die err) = Out.die err)
  rw [hcore]
  cases b with
  | true => exact ⟨fun _ => rfl, fun h => absurd (.inl rfl) h⟩
  | false =>
    rw [if_neg (by simp)]
    by_cases h : isAllowed P cur d ipf = true
    · rw [if_pos h]; exact ⟨fun _ => rfl, fun h' => absurd (.inr h) h'⟩
    · rw [if_neg h]; exact ⟨fun h' => absurd h' (by simpa using h), fun _ => rfl⟩

theorem core_permitted {P : Classes} {cur o d : Nat} {a : Acc} {ipf : Bool} (hw : Spec.Access.Wf P) (ho : Outmost P cur o)
    (h : Core P cur o d a ipf) : Permitted P cur d a := by
  rcases h with h | ⟨h1, h | h⟩ | ⟨_, _, h⟩ | ⟨_, h⟩ | h
  · subst h; exact .pub
  · subst h; exact .outmost ho
  · subst h1; exact .child ho h
  · subst h; exact .outmost ho
  · exact .own h
  · have : o = cur := by
      cases ho with
      | self _ => rfl
      | anon k => exact absurd h (hw.allows _ _ _ k)
    subst this
    exact .allow ho h

theorem permitted_core {P : Classes} {cur o d : Nat} {a : Acc} (ho : Outmost P cur o)
    (ha : Allows P d o → cur = o) (h : Permitted P cur d a) : Core P cur o d a false := by
  cases h with
  | pub => exact .inl rfl
  | own h => exact .inr (.inr (.inr (.inl ⟨rfl, h⟩)))
  | outmost h =>
    have := outmost_unique h ho
    subst this
    cases a
    · exact .inr (.inr (.inl ⟨rfl, rfl, rfl⟩))
    · exact .inr (.inl ⟨rfl, .inl rfl⟩)
    · exact .inl rfl
  | child h k => cases outmost_unique h ho; exact .inr (.inl ⟨rfl, .inr k⟩)
  | allow h k =>
    cases outmost_unique h ho
    have e := ha k
    subst e
    exact .inr (.inr (.inr (.inr k)))

theorem check_permitted {P : Classes} (hw : Spec.Access.Wf P) {n cur o d : Nat} (hn : P.w.length < n) (ho : Outmost P cur o)
    (hc : ∃ x, P.w[cur]? = some x) (hd : ∃ x, P.w[d]? = some x) (a : Acc) :
    (Permitted P cur d a → (Allows P d o → cur = o) → check P n cur d a false = .ok ()) ∧
    (¬ Permitted P cur d a → check P n cur d a false = .die err) := by
  obtain ⟨h1, h2⟩ := check_ok hw hn ho hc hd a false
  exact ⟨fun h ha => h1 (permitted_core ho ha h), fun h => h2 fun k => h (core_permitted hw ho k)⟩

/-! ## Names -/

theorem rsplit_plain {x : Bytes} (h : Plain x) : rsplit x = none := by
  induction x with
  | nil => rfl
  | cons c cs ih =>
    have h1 : c ≠ 58 := fun e => h (by rw [e]; simp)
    have h2 : Plain cs := fun e => h (List.mem_cons_of_mem _ e)
    unfold rsplit
    rw [ih h2]
    show (if c = 58 then some ([], cs) else none) = none
    rw [if_neg h1]

theorem rsplit_last {pre x : Bytes} (h : Plain x) : rsplit (pre ++ 58 :: x) = some (pre, x) := by
  induction pre with
  | nil =>
    show rsplit (58 :: x) = some ([], x)
    unfold rsplit
    rw [rsplit_plain h]
    rfl
  | cons c cs ih =>
    show rsplit (c :: (cs ++ 58 :: x)) = some (c :: cs, x)
    unfold rsplit
    rw [ih]

theorem rsplit_some {x pre post : Bytes} (h : rsplit x = some (pre, post)) : x = pre ++ 58 :: post ∧ Plain post := by
  induction x generalizing pre with
  | nil => cases h
  | cons c cs ih =>
    unfold rsplit at h
    cases hr : rsplit cs with
    | some ab =>
      obtain ⟨a, b⟩ := ab
      rw [hr] at h
      cases h
      obtain ⟨e, hp⟩ := ih hr
      exact ⟨by rw [e]; rfl, hp⟩
    | none =>
      rw [hr] at h
      by_cases hc : c = 58
      · rw [if_pos hc] at h
        cases h
        refine ⟨by rw [hc]; rfl, ?_⟩
        intro hm
        have : ∀ l : Bytes, (58 : UInt8) ∈ l → rsplit l ≠ none := by
          intro l hl hn
          induction l with
          | nil => cases hl
          | cons d ds ihd =>
            unfold rsplit at hn
            cases hd : rsplit ds with
            | some ab => rw [hd] at hn; cases hn
            | none =>
              rw [hd] at hn
              by_cases e : d = 58
              · rw [if_pos e] at hn; cases hn
              · rcases List.mem_cons.1 hl with k | k
                · exact e k.symm
                · exact ihd k hd
        exact this _ hm hr
      · rw [if_neg hc] at h; cases h

/-! ## Members -/

theorem find_member {l : List Member} (hn : (l.map Member.name).Nodup) {name : Bytes} {m : Member} :
    findMember l name = some m ↔ m ∈ l ∧ m.name = name := by
  unfold findMember
  constructor
  · intro h
    exact ⟨List.mem_of_find?_eq_some h, by simpa using List.find?_some h⟩
  · rintro ⟨h1, h2⟩
    induction l with
    | nil => cases h1
    | cons a l ih =>
      rw [List.map_cons, List.nodup_cons] at hn
      by_cases e : a.name = name
      · have : m = a := by
          rcases List.mem_cons.1 h1 with k | k
          · exact k
          · exact absurd (by rw [e, ← h2]; exact List.mem_map_of_mem k) hn.1
        rw [List.find?_cons_of_pos (by simpa using e), this]
      · rw [List.find?_cons_of_neg (by simpa using e)]
        rcases List.mem_cons.1 h1 with k | k
        · exact absurd (by rw [← k]; exact h2) e
        · exact ih hn.2 k

theorem find_member_none {l : List Member} {name : Bytes} : findMember l name = none ↔ ∀ m ∈ l, m.name ≠ name := by
  unfold findMember; simp

theorem find_meth {l : List Meth} (hn : (l.map Meth.name).Nodup) {name : Bytes} {m : Meth} :
    findMeth l name = some m ↔ m ∈ l ∧ m.name = name := by
  unfold findMeth
  constructor
  · intro h
    exact ⟨List.mem_of_find?_eq_some h, by simpa using List.find?_some h⟩
  · rintro ⟨h1, h2⟩
    induction l with
    | nil => cases h1
    | cons a l ih =>
      rw [List.map_cons, List.nodup_cons] at hn
      by_cases e : a.name = name
      · have : m = a := by
          rcases List.mem_cons.1 h1 with k | k
          · exact k
          · exact absurd (by rw [e, ← h2]; exact List.mem_map_of_mem k) hn.1
        rw [List.find?_cons_of_pos (by simpa using e), this]
      · rw [List.find?_cons_of_neg (by simpa using e)]
        rcases List.mem_cons.1 h1 with k | k
        · exact absurd (by rw [← k]; exact h2) e
        · exact ih hn.2 k

theorem find_meth_none {l : List Meth} {name : Bytes} : findMeth l name = none ↔ ∀ m ∈ l, m.name ≠ name := by
  unfold findMeth; simp

/-! ## Methods -/

theorem findsMethod_unique {P : Classes} (hw : Spec.Access.Wf P) {name : Bytes} {c d d' : Nat} {m m' : Meth}
    (h : FindsMethod P name c d m) (h' : FindsMethod P name c d' m') : d = d' ∧ m = m' := by
  induction h with
  | here h1 h2 =>
    cases h' with
    | here k1 k2 =>
      have e1 := (find_meth (hw.methods _)).2 ⟨h1, h2⟩
      have e2 := (find_meth (hw.methods _)).2 ⟨k1, k2⟩
      rw [e1] at e2; cases e2; exact ⟨rfl, rfl⟩
    | up k1 _ _ => exact absurd h2 (k1 _ h1)
  | up h1 h2 _ ih =>
    cases h' with
    | here k1 k2 => exact absurd k2 (h1 _ k1)
    | up k1 k2 k3 =>
      cases Types.parent_unique hw.types h2 k2
      exact ih k3

theorem searchMeth_ok {P : Classes} (hw : Spec.Access.Wf P) (name : Bytes) (n : Nat) : ∀ c, rank P.w c + 1 < n → (∃ b, P.w[c]? = some b) →
    (∀ d m, FindsMethod P name c d m → searchMeth P name n (some c) = .ok (some (d, m)) ∧ ∃ b, P.w[d]? = some b) ∧
    ((∀ d m, ¬ FindsMethod P name c d m) → searchMeth P name n (some c) = .ok none) := by
  induction n with
  | zero => intro c h; omega
  | succ n ih =>
    intro c hn hc
    unfold searchMeth
    cases hf : findMeth (P.info c).methods name with
    | some m =>
      obtain ⟨h1, h2⟩ := (find_meth (hw.methods c)).1 hf
      refine ⟨fun d m' h => ?_, fun h => absurd (.here h1 h2) (h c m)⟩
      obtain ⟨e1, e2⟩ := findsMethod_unique hw h (.here h1 h2)
      subst e1; subst e2
      exact ⟨rfl, hc⟩
    | none =>
      have hnone := find_meth_none.1 hf
      cases hp : Types.parent P.w c with
      | none =>
        obtain ⟨k, hk⟩ : ∃ k, n = k + 1 := ⟨n - 1, by omega⟩
        subst hk
        refine ⟨fun d m h => ?_, fun _ => rfl⟩
        cases h with
        | here k1 k2 => exact absurd k2 (hnone _ k1)
        | up _ k2 _ => rw [(parent_iff hw.types).2 k2] at hp; cases hp
      | some p =>
        have hpar := (parent_iff hw.types).1 hp
        have hr := rank_lt hw.types hpar
        obtain ⟨i1, i2⟩ := ih p (by omega) (by obtain ⟨_, bp, _, h2, _⟩ := hpar; exact ⟨bp, h2⟩)
        refine ⟨fun d m h => ?_, fun h => i2 fun d m k => h d m (.up hnone hpar k)⟩
        cases h with
        | here k1 k2 => exact absurd k2 (hnone _ k1)
        | up _ k2 k3 =>
          cases Types.parent_unique hw.types hpar k2
          exact i1 d m k3

/-! ## Fields -/

theorem ancestor_parent {P : Classes} (hw : Spec.Access.Wf P) {p c a : Nat} (hp : Parent P.w p c) :
    Ancestor P.w a c ↔ a = p ∨ Ancestor P.w a p := by
  constructor
  · intro h
    cases h with
    | parent h => exact .inl (Types.parent_unique hw.types h hp)
    | up h k => cases Types.parent_unique hw.types h hp; exact .inr k
  · rintro (h | h)
    · subst h; exact .parent hp
    · exact .up hp h

/-- The super classes of a class, nearest first. -/
inductive Chain (P : Classes) : List Nat → Prop
  | nil : Chain P []
  | root : (∀ p, ¬ Parent P.w p c) → Chain P [c]
  | cons : Parent P.w p c → Chain P (p :: l) → Chain P (c :: p :: l)

theorem supers_ok {P : Classes} (hw : Spec.Access.Wf P) (n : Nat) : ∀ c, rank P.w c + 1 < n →
    ∃ l, supers P n (some c) = .ok (c :: l) ∧ Chain P (c :: l) := by
  induction n with
  | zero => intro c h; omega
  | succ n ih =>
    intro c hn
    unfold supers
    cases hp : Types.parent P.w c with
    | none =>
      obtain ⟨k, hk⟩ : ∃ k, n = k + 1 := ⟨n - 1, by omega⟩
      subst hk
      refine ⟨[], rfl, .root fun p h => ?_⟩
      rw [(parent_iff hw.types).2 h] at hp; cases hp
    | some p =>
      have hpar := (parent_iff hw.types).1 hp
      have hr := rank_lt hw.types hpar
      obtain ⟨l, e, hl⟩ := ih p (by omega)
      rw [e]
      exact ⟨p :: l, rfl, .cons hpar hl⟩

theorem chain_mem {P : Classes} (hw : Spec.Access.Wf P) {l : List Nat} (h : Chain P l) : ∀ {c : Nat} {t : List Nat}, l = c :: t →
    ∀ d, d ∈ t ↔ Ancestor P.w d c := by
  induction h with
  | nil => intro c t e; cases e
  | root hr =>
    intro c t e; cases e
    intro d
    constructor
    · intro h; cases h
    · intro h
      cases h with
      | parent h => exact absurd h (hr _)
      | up h _ => exact absurd h (hr _)
  | cons hp _ ih =>
    intro c t e; cases e
    intro d
    rw [ancestor_parent hw hp, List.mem_cons, ih rfl d]

theorem chain_tail {P : Classes} {c : Nat} {t : List Nat} (h : Chain P (c :: t)) : Chain P t := by
  cases h with
  | root _ => exact .nil
  | cons _ h => exact h

theorem declared_iff {P : Classes} {l : List Nat} {name : Bytes} :
    declared P l name = true ↔ ∃ i ∈ l, ∃ f ∈ (P.info i).fields, f.name = name := by
  unfold declared findMember
  simp

theorem mergeOne_all {P : Classes} {above : List Nat} : ∀ {fs : List Member}, (∀ f ∈ fs, declared P above f.name = false) →
    mergeOne P above fs = fs
  | [], _ => rfl
  | f :: fs, h => by
    unfold mergeOne
    rw [if_neg (by rw [h f (by simp)]; simp), mergeOne_all fun g hg => h g (by simp [hg])]

/-- Without redeclarations the merged fields are the fields of all the classes. -/
theorem merged_mem {P : Classes} : ∀ {l : List Nat},
    (∀ d ∈ l, ∀ e ∈ l, ∀ f ∈ (P.info d).fields, ∀ g ∈ (P.info e).fields, f.name = g.name → d = e) → l.Nodup →
    ∀ f, f ∈ merged P l ↔ ∃ d ∈ l, f ∈ (P.info d).fields
  | [], _, _, f => by simp [merged]
  | c :: t, hu, hnd, f => by
    have hnd' := List.nodup_cons.1 hnd
    have hone : mergeOne P t (P.info c).fields = (P.info c).fields := by
      refine mergeOne_all fun g hg => ?_
      cases hd : declared P t g.name with
      | false => rfl
      | true =>
        obtain ⟨i, hi, f', hf', e⟩ := declared_iff.1 hd
        have := hu i (by simp [hi]) c (by simp) f' hf' g hg e
        exact absurd (this ▸ hi) hnd'.1
    have ih := merged_mem (l := t) (fun d hd e he => hu d (by simp [hd]) e (by simp [he])) hnd'.2 f
    unfold merged
    rw [hone, List.mem_append, ih]
    constructor
    · rintro (⟨d, h1, h2⟩ | h)
      · exact ⟨d, by simp [h1], h2⟩
      · exact ⟨c, by simp, h⟩
    · rintro ⟨d, h1, h2⟩
      rcases List.mem_cons.1 h1 with k | k
      · subst k; exact .inr h2
      · exact .inl ⟨d, k, h2⟩

theorem chain_nodup {P : Classes} (hw : Spec.Access.Wf P) {l : List Nat} (h : Chain P l) : l.Nodup := by
  induction h with
  | nil => simp
  | root _ => simp
  | @cons p c l hp hl ih =>
    refine List.nodup_cons.2 ⟨fun hm => ?_, ih⟩
    exact hw.types.acyclic c ((chain_mem hw (.cons hp hl) rfl c).1 hm)

theorem findMember_unique {l : List Member} {name : Bytes} {f : Member} (hf : f ∈ l) (hn : f.name = name)
    (hu : ∀ g ∈ l, g.name = name → g = f) : findMember l name = some f := by
  unfold findMember
  cases h : l.find? (fun m => m.name == name) with
  | none => rw [List.find?_eq_none] at h; exact absurd (by simpa using hn) (h f hf)
  | some g =>
    rw [hu g (List.mem_of_find?_eq_some h) (by simpa using List.find?_some h)]

theorem resolveField_ok {P : Classes} (hw : Spec.Access.Wf P) {c : Nat} {t : List Nat} (h : Chain P (c :: t))
    (hu : NoRedeclaration P c) {d : Nat} {f : Member} (hf : HasField P c d f) :
    resolveField P f.name (c :: t) = some (c, f) := by
  have hmem : ∀ e, e ∈ c :: t ↔ e = c ∨ Ancestor P.w e c := by
    intro e; rw [List.mem_cons, chain_mem hw h rfl e]
  have hm := merged_mem (P := P) (l := c :: t) (fun d hd e he f hf g hg k =>
    hu d e f g ⟨(hmem d).1 hd, hf⟩ ⟨(hmem e).1 he, hg⟩ k) (chain_nodup hw h)
  unfold resolveField mergedField
  rw [findMember_unique (f := f) (by rw [List.mem_reverse, hm]; exact ⟨d, (hmem d).2 hf.1, hf.2⟩) rfl]
  intro g hg e
  rw [List.mem_reverse, hm] at hg
  obtain ⟨d', h1, h2⟩ := hg
  have := hu d' d g f ⟨(hmem d').1 h1, h2⟩ hf e
  subst this
  have e1 := (find_member (hw.fields d')).2 ⟨h2, e⟩
  have e2 := (find_member (hw.fields d')).2 ⟨hf.2, rfl⟩
  rw [e1] at e2; cases e2; rfl

theorem mergeOne_sub {P : Classes} {above : List Nat} : ∀ {fs : List Member} {f : Member}, f ∈ mergeOne P above fs → f ∈ fs
  | [], _, h => h
  | g :: fs, f, h => by
    unfold mergeOne at h
    by_cases k : declared P above g.name = true
    · rw [if_pos k] at h; cases h
    · rw [if_neg k] at h
      rcases List.mem_cons.1 h with e | e
      · simp [e]
      · exact List.mem_cons_of_mem _ (mergeOne_sub e)

theorem merged_sub {P : Classes} : ∀ {l : List Nat} {f : Member}, f ∈ merged P l → ∃ d ∈ l, f ∈ (P.info d).fields
  | c :: t, f, h => by
    unfold merged at h
    rcases List.mem_append.1 h with k | k
    · obtain ⟨d, h1, h2⟩ := merged_sub k
      exact ⟨d, by simp [h1], h2⟩
    · exact ⟨c, by simp, mergeOne_sub k⟩

theorem resolveField_sub {P : Classes} {name : Bytes} : ∀ {l : List Nat} {i : Nat} {f : Member}, resolveField P name l = some (i, f) →
    f.name = name ∧ ∃ d ∈ l, f ∈ (P.info d).fields
  | c :: t, i, f, h => by
    unfold resolveField mergedField at h
    cases hf : findMember (merged P (c :: t)).reverse name with
    | none =>
      rw [hf] at h
      obtain ⟨e, d, h1, h2⟩ := resolveField_sub h
      exact ⟨e, d, by simp [h1], h2⟩
    | some g =>
      rw [hf] at h
      cases h
      unfold findMember at hf
      have h1 := List.mem_of_find?_eq_some hf
      rw [List.mem_reverse] at h1
      exact ⟨by simpa using List.find?_some hf, merged_sub h1⟩

end Access
end SPVM
