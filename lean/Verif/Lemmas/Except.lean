import Verif.Spec.Except

namespace SPVM.Except

/-- The machine agrees with a wanted outcome. -/
def Agrees (r : Out (Int × St)) (w : Option Thrown × St) : Prop :=
  match w.1 with
  | none => r = .ok (0, w.2)
  | some t => t.id ≠ 0 ∧ r = .ok (t.id, { w.2 with exc := some t.cut })

theorem stackTrace_cut (depth : Nat) (msg : Msg) (ps : List Place) (id : Int) (m : Meth) (line : Int) :
    stackTrace depth (some (Thrown.cut ⟨id, msg, ps⟩)) m line = .ok (some (Thrown.cut ⟨id, msg, ps ++ [⟨m, line, depth⟩]⟩)) := by
  unfold stackTrace Thrown.cut
  simp only [List.filter_append, List.map_append, List.flatten_append]
  by_cases h : depth > 100
  · have h' : [(⟨m, line, depth⟩ : Place)].filter (fun p => decide (p.depth ≤ 100)) = [] :=
      List.filter_eq_nil_iff.2 fun p hp => by rw [List.mem_singleton.1 hp]; simp; exact h
    rw [if_pos h, h', List.map_nil, List.flatten_nil, List.append_nil]
  · have h' : [(⟨m, line, depth⟩ : Place)].filter (fun p => decide (p.depth ≤ 100)) = [⟨m, line, depth⟩] :=
      List.filter_eq_self.2 fun p hp => by rw [List.mem_singleton.1 hp]; simp; omega
    rw [if_neg h, h', List.map_cons, List.map_nil, List.flatten_cons, List.flatten_nil, List.append_nil]
    show Out.ok (some (_ ++ Place.text ⟨m, line, depth⟩)) = _
    rw [List.append_assoc]

theorem onException_zero (depth : Nat) (m : Meth) (line : Int) (s : St) : onException depth m line 0 s = .ok (0, s) := rfl

theorem onException_cut {depth : Nat} {m : Meth} {line : Int} {t : Thrown} (ht : t.id ≠ 0) (s : St) :
    onException depth m line t.id { s with exc := some t.cut } =
      .ok (t.id, { s with exc := some (Thrown.cut { t with places := t.places ++ [⟨m, line, depth⟩] }) }) := by
  unfold onException
  rw [if_neg ht]
  have := stackTrace_cut depth t.msg t.places t.id m line
  show (stackTrace depth (some t.cut) m line >>= fun e => Out.ok (t.id, { s with exc := e })) = _
  rw [show t.cut = Thrown.cut ⟨t.id, t.msg, t.places⟩ from rfl, this]
  rfl

theorem agrees : ∀ (c : Code) (m : Meth) (depth : Nat) (s : St), Proper c → Agrees (exec m depth c s) (want Thrown.cut m depth c s) := by
  intro c
  induction c with
  | skip => intro m d s _; rfl
  | setExc v => intro m d s _; rfl
  | look => intro m d s _; rfl
  | die id msg line =>
    intro m d s h
    obtain ⟨hid, hm⟩ := h
    cases msg with
    | none => exact absurd rfl hm
    | some e =>
      refine ⟨hid, ?_⟩
      have := onException_cut (depth := d) (m := m) (line := line) (t := ⟨id, e, []⟩) hid s
      have he : Thrown.cut ⟨id, e, []⟩ = e := by simp [Thrown.cut]
      rw [he] at this
      exact this
  | seq a b iha ihb =>
    intro m d s h
    have ha := iha m d s h.1
    unfold Agrees at ha
    unfold exec want
    cases hw : want Thrown.cut m d a s with
    | mk o s' =>
      rw [hw] at ha
      cases o with
      | none =>
        simp only at ha ⊢
        rw [ha, Out.ok_bind]
        exact ihb m d s' h.2
      | some t =>
        simp only at ha ⊢
        obtain ⟨ht, ha⟩ := ha
        rw [ha, Out.ok_bind]
        simp only [ne_eq, ht, not_false_eq_true, if_true]
        exact ⟨ht, rfl⟩
  | evalB b ih =>
    intro m d s h
    have hb := ih m d { s with exc := none, evalErr := 0 } h
    unfold Agrees at hb
    unfold exec want
    cases hw : want Thrown.cut m d b { s with exc := none, evalErr := 0 } with
    | mk o s' =>
      rw [hw] at hb
      cases o with
      | none =>
        simp only at hb ⊢
        rw [hb, Out.ok_bind]
        rfl
      | some t =>
        simp only at hb ⊢
        obtain ⟨ht, hb⟩ := hb
        rw [hb, Out.ok_bind]
        simp only [ne_eq, ht, not_false_eq_true, if_true]
        rfl
  | call m' b line ih =>
    intro m d s h
    unfold exec want
    by_cases hd : d + 1 > 1000
    · simp only [hd, if_true, Out.ok_bind]
      generalize deepMsg = deepMsg
      have hne : errorClass ≠ 0 := by decide
      refine ⟨hne, ?_⟩
      have := onException_cut (depth := d) (m := m) (line := line) (t := ⟨errorClass, deepMsg, []⟩) hne s
      have he : Thrown.cut ⟨errorClass, deepMsg, []⟩ = deepMsg := by simp [Thrown.cut]
      rw [he] at this
      exact this
    · simp only [hd, if_false]
      have hb := ih m' (d + 1) { s with evalErr := 0 } h
      unfold Agrees at hb
      cases hw : want Thrown.cut m' (d + 1) b { s with evalErr := 0 } with
      | mk o s' =>
        rw [hw] at hb
        cases o with
        | none =>
          simp only at hb ⊢
          rw [hb, Out.ok_bind]
          rfl
        | some t =>
          simp only at hb ⊢
          obtain ⟨ht, hb⟩ := hb
          rw [hb, Out.ok_bind]
          exact ⟨ht, onException_cut ht { s' with evalErr := s.evalErr }⟩

/-- Places at most as deep as the calls go. -/
theorem places_depth (text : Thrown → Msg) : ∀ (c : Code) (m : Meth) (depth : Nat) (s : St) {t : Thrown} {s' : St},
    want text m depth c s = (some t, s') → ∀ p ∈ t.places, p.depth ≤ depth + calls c := by
  intro c
  induction c with
  | skip => intro m d s t s' h; cases h
  | setExc v => intro m d s t s' h; cases h
  | look => intro m d s t s' h; cases h
  | die id msg line =>
    intro m d s t s' h p hp
    cases h
    rw [List.mem_singleton.1 hp]; exact Nat.le_add_right _ _
  | seq a b iha ihb =>
    intro m d s t s' h p hp
    unfold want at h
    unfold calls
    cases hw : want text m d a s with
    | mk o s1 =>
      rw [hw] at h
      cases o with
      | none => have := ihb m d s1 h p hp; omega
      | some t1 => cases h; have := iha m d s hw p hp; omega
  | evalB b ih =>
    intro m d s t s' h
    unfold want at h
    cases hw : want text m d b { s with exc := none, evalErr := 0 } with
    | mk o s1 => rw [hw] at h; cases o <;> cases h
  | call m' b line ih =>
    intro m d s t s' h p hp
    unfold want at h
    unfold calls
    by_cases hd : d + 1 > 1000
    · simp only [hd, if_true] at h
      cases h
      rw [List.mem_singleton.1 hp]; exact Nat.le_add_right _ _
    · simp only [hd, if_false] at h
      cases hw : want text m' (d + 1) b { s with evalErr := 0 } with
      | mk o s1 =>
        rw [hw] at h
        cases o with
        | none => cases h
        | some t1 =>
          cases h
          rcases List.mem_append.1 hp with hp | hp
          · have := ih m' (d + 1) _ hw p hp; omega
          · rw [List.mem_singleton.1 hp]; exact Nat.le_add_right _ _

theorem cut_eq_text {t : Thrown} (h : ∀ p ∈ t.places, p.depth ≤ 100) : t.cut = t.text := by
  unfold Thrown.cut Thrown.text
  congr 3
  exact List.filter_eq_self.2 (fun p hp => decide_eq_true (h p hp))

/-- Within 100 calls nothing is cut. -/
theorem want_text : ∀ (c : Code) (m : Meth) (depth : Nat) (s : St), depth + calls c ≤ 100 →
    want Thrown.cut m depth c s = want Thrown.text m depth c s := by
  intro c
  induction c with
  | skip => intros; rfl
  | setExc v => intros; rfl
  | look => intros; rfl
  | die id msg line => intros; rfl
  | seq a b iha ihb =>
    intro m d s h
    unfold calls at h
    unfold want
    rw [iha m d s (by omega)]
    cases hw : want Thrown.text m d a s with
    | mk o s1 =>
      cases o with
      | none => exact ihb m d s1 (by omega)
      | some t => rfl
  | evalB b ih =>
    intro m d s h
    unfold calls at h
    unfold want
    rw [ih m d _ h]
    cases hw : want Thrown.text m d b { s with exc := none, evalErr := 0 } with
    | mk o s1 =>
      cases o with
      | none => rfl
      | some t =>
        have := cut_eq_text (t := t) (fun p hp => Nat.le_trans (places_depth _ b m d _ hw p hp) h)
        simp only [this]
  | call m' b line ih =>
    intro m d s h
    unfold calls at h
    unfold want
    rw [ih m' (d + 1) _ (by omega)]

/-! ### `printf` -/

theorem printf_append : ∀ (f : Msg) (as : List Arg) {t : Msg} {rest : List Arg}, printf f as = .ok (t, rest) → ∀ (g : Msg) (bs : List Arg),
    printf (f ++ g) (as ++ bs) = (printf g (rest ++ bs)).bind fun r => .ok (t ++ r.1, r.2) := by
  intro f as
  fun_induction printf f as with
  | case1 as =>
    intro t rest h g bs
    cases h
    simp only [List.nil_append]
    cases printf g (as ++ bs) <;> rfl
  | case2 r as ih =>
    intro t rest h g bs
    cases hp : printf r as with
    | die e => rw [hp] at h; cases h
    | ub => rw [hp] at h; cases h
    | ok x =>
      rw [hp] at h; cases h
      simp only [List.cons_append, printf]
      rw [ih hp g bs]
      cases printf g (x.2 ++ bs) <;> rfl
  | case3 r s as ih =>
    intro t rest h g bs
    cases hp : printf r as with
    | die e => rw [hp] at h; cases h
    | ub => rw [hp] at h; cases h
    | ok x =>
      rw [hp] at h; cases h
      simp only [List.cons_append, printf]
      rw [ih hp g bs]
      cases printf g (x.2 ++ bs) with
      | ok y => simp [Out.bind, bind]
      | die e => rfl
      | ub => rfl
  | case4 r i as ih =>
    intro t rest h g bs
    cases hp : printf r as with
    | die e => rw [hp] at h; cases h
    | ub => rw [hp] at h; cases h
    | ok x =>
      rw [hp] at h; cases h
      simp only [List.cons_append, printf]
      rw [ih hp g bs]
      cases printf g (x.2 ++ bs) with
      | ok y => simp [Out.bind, bind]
      | die e => rfl
      | ub => rfl
  | case5 r i as ih =>
    intro t rest h g bs
    cases hp : printf r as with
    | die e => rw [hp] at h; cases h
    | ub => rw [hp] at h; cases h
    | ok x =>
      rw [hp] at h; cases h
      simp only [List.cons_append, printf]
      rw [ih hp g bs]
      cases printf g (x.2 ++ bs) with
      | ok y => simp [Out.bind, bind]
      | die e => rfl
      | ub => rfl
  | case6 => intro t rest h; cases h
  | case7 c r as h1 h2 h3 h4 hc ih =>
    intro t rest h g bs
    cases hp : printf r as with
    | die e => rw [hp] at h; cases h
    | ub => rw [hp] at h; cases h
    | ok x =>
      rw [hp] at h; cases h
      have : ∀ (l : Msg) (as : List Arg), printf (c :: l) as = (printf l as >>= fun t => Out.ok (c :: t.1, t.2)) := by
        intro l as
        rw [printf]
        · rw [if_neg hc]
        all_goals (intros; contradiction)
      rw [List.cons_append, this, ih hp g bs]
      cases printf g (x.2 ++ bs) <;> rfl

end SPVM.Except
