import Verif.Spec.Time
import Verif.Proofs.Str
/- Helper lemmas for time formatting. -/
namespace G3
open Spec

theorem zeroes_eq (f : Fractional) : f.zeroes = unitDigits f := by cases f <;> rfl

theorem cut_eq (f : Fractional) : f.cut = ((10 ^ (9 - unitDigits f) : Nat) : Int) := by
  cases f <;> rfl

theorem decInt_ofNat (n : Nat) : decInt (n : Int) = decNat n := by
  unfold decInt
  have : ¬ ((n : Int) < 0) := by omega
  simp [this]

theorem decInt_neg (n : Nat) (h : 0 < n) : decInt (-(n : Int)) = '-' :: decNat n := by
  unfold decInt
  have h1 : -(n : Int) < 0 := by omega
  rw [if_pos h1]
  simp

/-- The truncated sub-second value of a non-negative time, in units of the conversion. -/
theorem frac_value_nonneg (n : Nat) (f : Fractional) :
    (((n : Int) - ((n : Int).tdiv 1000000000) * 1000000000).tdiv f.cut) =
      ((n % 1000000000 / 10 ^ (9 - unitDigits f) : Nat) : Int) := by
  rw [cut_eq]
  have h1 : (n : Int).tdiv 1000000000 = ((n / 1000000000 : Nat) : Int) := by
    rw [Int.tdiv_eq_ediv_of_nonneg (by omega)]; rfl
  rw [h1]
  have h2 : (n : Int) - ((n / 1000000000 : Nat) : Int) * 1000000000 = ((n % 1000000000 : Nat) : Int) := by omega
  rw [h2, Int.tdiv_eq_ediv_of_nonneg (by omega)]
  rfl

/-- The same for a time before the epoch. -/
theorem frac_value_neg (n : Nat) (f : Fractional) :
    ((-(n : Int) - ((-(n : Int)).tdiv 1000000000) * 1000000000).tdiv f.cut) =
      -((n % 1000000000 / 10 ^ (9 - unitDigits f) : Nat) : Int) := by
  rw [← frac_value_nonneg n f, ← Int.neg_tdiv, Int.neg_tdiv (n : Int)]
  congr 1
  ring

theorem unitDigits_pos (f : Fractional) : 3 ≤ unitDigits f ∧ unitDigits f ≤ 9 := by
  cases f <;> decide

theorem frac_lt (n : Nat) (f : Fractional) :
    n % 1000000000 / 10 ^ (9 - unitDigits f) < 10 ^ unitDigits f := by
  have h : n % 1000000000 < 1000000000 := Nat.mod_lt _ (by decide)
  apply Nat.div_lt_of_lt_mul
  rw [← Nat.pow_add]
  have : 9 - unitDigits f + unitDigits f = 9 := by have := unitDigits_pos f; omega
  rw [this]; exact h

theorem decNat_len_le_iff (w n : Nat) (hw : 1 ≤ w) : (decNat n).length ≤ w ↔ n < 10 ^ w := by
  have := decNat_length_le (w - 1) n
  rw [Nat.sub_add_cancel hw] at this
  exact this

theorem fracToString_nonneg (n : Nat) (f : Fractional) :
    fracToString (n : Int) f = .ok (List.replicate (unitDigits f -
      (decNat (n % 1000000000 / 10 ^ (9 - unitDigits f))).length) '0' ++
        decNat (n % 1000000000 / 10 ^ (9 - unitDigits f))) := by
  unfold fracToString
  simp only [frac_value_nonneg, decInt_ofNat, zeroes_eq]
  rw [if_pos]
  exact (decNat_len_le_iff _ _ (by have := unitDigits_pos f; omega)).mpr (frac_lt n f)

theorem zero_isDig : isDig '0' := by unfold isDig; decide

theorem fracDigits_spec (w n : Nat) (h : (decNat n).length ≤ w) :
    IsFixedWidth w n (List.replicate (w - (decNat n).length) '0' ++ decNat n) := by
  refine ⟨?_, ?_, ?_⟩
  · simp; omega
  · intro c hc
    rcases List.mem_append.mp hc with hc | hc
    · rw [(List.mem_replicate.mp hc).2]; exact zero_isDig
    · exact decNat_isDig _ c hc
  · rw [numVal_replicate_zero, numVal_decNat]

/-- A fixed-width numeral is determined by width and value. -/
theorem fixedWidth_unique {w n : Nat} : ∀ {s t : Str}, IsFixedWidth w n s → IsFixedWidth w n t → s = t := by
  induction w generalizing n with
  | zero =>
    intro s t hs ht
    have h1 := List.length_eq_zero_iff.mp hs.1
    have h2 := List.length_eq_zero_iff.mp ht.1
    rw [h1, h2]
  | succ w ih =>
    intro s t hs ht
    have hs0 : s ≠ [] := by intro e; rw [e] at hs; exact absurd hs.1 (by simp)
    have ht0 : t ≠ [] := by intro e; rw [e] at ht; exact absurd ht.1 (by simp)
    obtain ⟨s', a, rfl⟩ := List.eq_nil_or_concat s |>.resolve_left hs0
    obtain ⟨t', b, rfl⟩ := List.eq_nil_or_concat t |>.resolve_left ht0
    rw [List.concat_eq_append] at hs ht
    obtain ⟨l1, d1, v1⟩ := hs
    obtain ⟨l2, d2, v2⟩ := ht
    rw [numVal_append_singleton] at v1 v2
    have ha : isDig a := d1 a (by simp)
    have hb : isDig b := d2 b (by simp)
    unfold isDig at ha hb
    unfold digitVal at v1 v2
    have e1 : numVal s' = numVal t' := by omega
    have e2 : a = b := char_eq_of_toNat (by omega)
    have := @ih (numVal s') s' t' ⟨by simpa using l1, fun c hc => d1 c (by simp [hc]), rfl⟩
      ⟨by simpa using l2, fun c hc => d2 c (by simp [hc]), e1.symm⟩
    rw [List.concat_eq_append, List.concat_eq_append, this, e2]

theorem decInt_no_percent (i : Int) : '%' ∉ decInt i := by
  have h : ∀ n, '%' ∉ decNat n := by
    intro n hn
    have := decNat_isDig n _ hn
    exact absurd this (by unfold isDig; decide)
  unfold decInt
  split
  · intro hm
    rcases List.mem_cons.mp hm with e | e
    · exact absurd e (by decide)
    · exact h _ e
  · exact h _

theorem fracToString_no_percent {ts : Int} {f : Fractional} {v : Str} (h : fracToString ts f = .ok v) : '%' ∉ v := by
  unfold fracToString at h
  simp only at h
  split at h
  · cases h
    intro hm
    rcases List.mem_append.mp hm with e | e
    · exact absurd (List.mem_replicate.mp e).2 (by decide)
    · exact decInt_no_percent _ e
  · cases h

theorem fracToString_length {ts : Int} {f : Fractional} {v : Str} (h : fracToString ts f = .ok v) :
    v.length = unitDigits f := by
  unfold fracToString at h
  simp only at h
  split at h
  · rename_i hl
    cases h
    rw [zeroes_eq] at *
    simp only [List.length_append, List.length_replicate]
    omega
  · cases h

/-! ### The `%f` loop -/

theorem isPrefixOf_pf (c : Char) (cs : Str) :
    List.isPrefixOf ['%', 'f'] (c :: cs) = true ↔ ∃ r, c = '%' ∧ cs = 'f' :: r := by
  cases cs with
  | nil => simp [List.isPrefixOf]
  | cons d r =>
    simp only [List.isPrefixOf, Bool.and_true, Bool.and_eq_true, beq_iff_eq, List.cons.injEq, exists_eq_right', exists_and_left]
    constructor
    · rintro ⟨h1, h2⟩; exact ⟨h1.symm, h2.symm⟩
    · rintro ⟨h1, h2⟩; exact ⟨h1.symm, h2.symm⟩

theorem subst_cons (d3 d6 d9 : Str) (c : Char) (cs : Str) (h : ¬ List.isPrefixOf ['%', 'f'] (c :: cs) = true) :
    substFractions d3 d6 d9 (c :: cs) = c :: substFractions d3 d6 d9 cs := by
  rw [isPrefixOf_pf] at h
  rw [substFractions]
  · rintro r rfl rfl; exact absurd ⟨_, rfl, rfl⟩ h
  · rintro r rfl rfl; exact absurd ⟨_, rfl, rfl⟩ h
  · rintro r rfl rfl; exact absurd ⟨_, rfl, rfl⟩ h
  · rintro r rfl rfl; exact absurd ⟨_, rfl, rfl⟩ h

theorem findAux_none (d3 d6 d9 : Str) (B : Str) : ∀ i, findAux ['%', 'f'] i B = none → substFractions d3 d6 d9 B = B := by
  induction B with
  | nil => intro i _; simp [substFractions]
  | cons c cs ih =>
    intro i h
    unfold findAux at h
    split at h
    · cases h
    · rename_i hp
      rw [subst_cons _ _ _ _ _ hp, ih _ h]

theorem findAux_some (B : Str) : ∀ i p, findAux ['%', 'f'] i B = some p →
    ∃ X Y, B = X ++ '%' :: 'f' :: Y ∧ p = i + X.length ∧
      ∀ d3 d6 d9, substFractions d3 d6 d9 B = X ++ substFractions d3 d6 d9 ('%' :: 'f' :: Y) := by
  induction B with
  | nil => intro i p h; simp [findAux] at h
  | cons c cs ih =>
    intro i p h
    unfold findAux at h
    split at h
    · rename_i hp
      obtain ⟨r, rfl, rfl⟩ := (isPrefixOf_pf _ _).mp hp
      cases h
      exact ⟨[], r, rfl, rfl, fun _ _ _ => rfl⟩
    · rename_i hp
      obtain ⟨X, Y, e, e2, e3⟩ := ih _ _ h
      refine ⟨c :: X, Y, by rw [e]; rfl, by rw [e2]; simp; omega, ?_⟩
      intro d3 d6 d9
      rw [subst_cons _ _ _ _ _ hp, e3]; rfl

theorem find_append (A B : Str) : find ['%', 'f'] A.length (A ++ B) = findAux ['%', 'f'] A.length B := by
  unfold find
  simp

theorem subst_append (d3 d6 d9 : Str) (D R : Str) (h : '%' ∉ D) :
    substFractions d3 d6 d9 (D ++ R) = D ++ substFractions d3 d6 d9 R := by
  induction D with
  | nil => rfl
  | cons c D ih =>
    have hc : c ≠ '%' := fun e => h (by simp [e])
    rw [List.cons_append, subst_cons]
    · rw [ih (fun hm => h (List.mem_cons_of_mem _ hm))]; rfl
    · rw [isPrefixOf_pf]; rintro ⟨r, e, _⟩; exact hc e

/-- A literal text without `%f` (and not ending in `%`) in front of a format is kept. -/
theorem subst_literal (d3 d6 d9 : Str) : ∀ (P R : Str), findAux ['%', 'f'] 0 P = none → P.getLast? ≠ some '%' →
    substFractions d3 d6 d9 (P ++ R) = P ++ substFractions d3 d6 d9 R := by
  have gen : ∀ (P R : Str) (i : Nat), findAux ['%', 'f'] i P = none → P.getLast? ≠ some '%' →
    substFractions d3 d6 d9 (P ++ R) = P ++ substFractions d3 d6 d9 R := by
    intro P
    induction P with
    | nil => intro R i _ _; rfl
    | cons c P ih =>
      intro R i h hl
      unfold findAux at h
      split at h
      · cases h
      · rename_i hp
        rw [List.cons_append, subst_cons]
        · cases P with
          | nil => rfl
          | cons d P =>
            rw [ih R _ h (by simpa [List.getLast?_cons_cons] using hl)]; rfl
        · rw [isPrefixOf_pf] at hp ⊢
          rintro ⟨r, rfl, e⟩
          cases P with
          | nil => exact hl rfl
          | cons d P =>
            simp only [List.cons_append, List.cons.injEq] at e
            exact hp ⟨P, rfl, by rw [e.1]⟩
  exact fun P R => gen P R 0

/-- What stands after a `%f` at the cut: its unit and the remaining text. -/
def afterPf (Y : Str) : Fractional × Str :=
  match Y with
  | '3' :: r => (.millisecond, r)
  | '6' :: r => (.microsecond, r)
  | '9' :: r => (.nanosecond, r)
  | r => (.nanosecondDefault, r)

theorem getFractional_at (Z Y : Str) :
    getFractional (Z ++ '%' :: 'f' :: Y) Z.length = (afterPf Y).1 ∧
    replaceAt (Z ++ '%' :: 'f' :: Y) Z.length (2 + (afterPf Y).1.padding) = fun v => Z ++ v ++ (afterPf Y).2 := by
  have hg : ∀ k : Nat, (Z ++ '%' :: 'f' :: Y).drop (Z.length + (2 + k)) = Y.drop k := by
    intro k
    rw [List.drop_append]
    have h1 : List.drop (Z.length + (2 + k)) Z = [] := List.drop_eq_nil_of_le (by omega)
    rw [h1]
    have : Z.length + (2 + k) - Z.length = k + 2 := by omega
    rw [this]
    rfl
  have ht : (Z ++ '%' :: 'f' :: Y).take Z.length = Z := by simp
  cases Y with
  | nil =>
    refine ⟨by simp [getFractional, afterPf], ?_⟩
    funext v
    unfold replaceAt
    rw [ht, hg]; simp [afterPf, Fractional.padding]
  | cons c r =>
    have hch : (if (Z ++ '%' :: 'f' :: c :: r).length > Z.length + 2 then
        (Z ++ '%' :: 'f' :: c :: r).getD (Z.length + 2) (Char.ofNat 0) else Char.ofNat 0) = c := by
      rw [if_pos (by simp)]
      simp [List.getD_eq_getElem?_getD]
    constructor
    · unfold getFractional
      simp only [hch]
      by_cases e3 : c = '3'
      · subst e3; rfl
      by_cases e6 : c = '6'
      · subst e6; rfl
      by_cases e9 : c = '9'
      · subst e9; rfl
      rw [if_neg e3, if_neg e6, if_neg e9]
      unfold afterPf
      split
      · rename_i e; cases e; exact absurd rfl e3
      · rename_i e; cases e; exact absurd rfl e6
      · rename_i e; cases e; exact absurd rfl e9
      · rfl
    · funext v
      unfold replaceAt
      rw [ht, hg]
      unfold afterPf
      split
      · rename_i e; cases e; rfl
      · rename_i e; cases e; rfl
      · rename_i e; cases e; rfl
      · simp [Fractional.padding]

theorem subst_pf (d3 d6 d9 : Str) (Y : Str) :
    substFractions d3 d6 d9 ('%' :: 'f' :: Y) =
      (match (afterPf Y).1 with
       | .millisecond => d3 | .microsecond => d6 | .nanosecond => d9 | .nanosecondDefault => d9) ++
      substFractions d3 d6 d9 (afterPf Y).2 := by
  cases Y with
  | nil => simp [substFractions, afterPf]
  | cons c r =>
    by_cases e3 : c = '3'
    · subst e3; simp [substFractions, afterPf]
    by_cases e6 : c = '6'
    · subst e6; simp [substFractions, afterPf]
    by_cases e9 : c = '9'
    · subst e9; simp [substFractions, afterPf]
    have ha : afterPf (c :: r) = (.nanosecondDefault, c :: r) := by
      unfold afterPf
      split
      · rename_i e; cases e; exact absurd rfl e3
      · rename_i e; cases e; exact absurd rfl e6
      · rename_i e; cases e; exact absurd rfl e9
      · rfl
    rw [ha]
    rw [substFractions]
    · rintro r' e; cases e; exact e3 rfl
    · rintro r' e; cases e; exact e6 rfl
    · rintro r' e; cases e; exact e9 rfl

theorem afterPf_count (Y : Str) : (afterPf Y).2.count '%' ≤ Y.count '%' := by
  unfold afterPf
  split
  · simp
  · simp
  · simp
  · exact Nat.le_refl _

/-- The loop leaves through `find` before its bound is exhausted, for every time and format; and if all
conversions succeed it computes the substitution. -/
theorem fractionsLoop_spec (ts : Int) : ∀ (fuel : Nat) (A B : Str), B.count '%' < fuel →
    (∃ r, fractionsLoop ts fuel A.length (A ++ B) = some r) ∧
    ∀ d3 d6 d9, fracToString ts .millisecond = .ok d3 → fracToString ts .microsecond = .ok d6 →
      fracToString ts .nanosecond = .ok d9 → fracToString ts .nanosecondDefault = .ok d9 →
      fractionsLoop ts fuel A.length (A ++ B) = some (.ok (A ++ substFractions d3 d6 d9 B)) := by
  intro fuel
  induction fuel with
  | zero => intro A B h; omega
  | succ fuel ih =>
    intro A B h
    unfold fractionsLoop
    rw [find_append]
    cases hf : findAux ['%', 'f'] A.length B with
    | none =>
      refine ⟨⟨_, rfl⟩, ?_⟩
      intro d3 d6 d9 _ _ _ _
      simp only
      rw [findAux_none d3 d6 d9 B _ hf]
    | some p =>
      obtain ⟨X, Y, e, e2, e3⟩ := findAux_some B _ _ hf
      have hbuf : A ++ B = (A ++ X) ++ '%' :: 'f' :: Y := by rw [e, List.append_assoc]
      have hp : p = (A ++ X).length := by rw [e2]; simp
      have hga := getFractional_at (A ++ X) Y
      simp only
      rw [hbuf, hp, hga.1, hga.2]
      have hcount : (afterPf Y).2.count '%' < fuel := by
        have h1 := afterPf_count Y
        rw [e, List.count_append, List.count_cons, List.count_cons] at h
        have : (if ('%' == '%') = true then 1 else 0) = 1 := by decide
        omega
      cases hv : fracToString ts (afterPf Y).1 with
      | error er =>
        refine ⟨⟨_, rfl⟩, ?_⟩
        intro d3 d6 d9 h3 h6 h9 h9'
        exfalso
        cases hh : (afterPf Y).1 <;> rw [hh] at hv
        · rw [h3] at hv; cases hv
        · rw [h6] at hv; cases hv
        · rw [h9] at hv; cases hv
        · rw [h9'] at hv; cases hv
      | ok v =>
        simp only
        have hlen := fracToString_length hv
        have hnp := fracToString_no_percent hv
        have h3le := (unitDigits_pos (afterPf Y).1).1
        obtain ⟨v2, hv2⟩ : ∃ v2, v2 = v.take 2 := ⟨_, rfl⟩
        have hsplit : A ++ X ++ v ++ (afterPf Y).2 = (A ++ X ++ v.take 2) ++ (v.drop 2 ++ (afterPf Y).2) := by
          rw [← List.append_assoc, List.append_assoc (A ++ X) (v.take 2), List.take_append_drop]
        have hpos : (A ++ X).length + 2 + 0 = (A ++ X ++ v.take 2).length := by
          simp only [List.length_append, List.length_take]; omega
        have hnpd : '%' ∉ v.drop 2 := fun hm => hnp (List.mem_of_mem_drop hm)
        have hcount' : (v.drop 2 ++ (afterPf Y).2).count '%' < fuel := by
          rw [List.count_append, List.count_eq_zero.mpr hnpd]; omega
        rw [hsplit, hpos]
        obtain ⟨i1, i2⟩ := ih (A ++ X ++ v.take 2) (v.drop 2 ++ (afterPf Y).2) hcount'
        refine ⟨i1, ?_⟩
        intro d3 d6 d9 h3 h6 h9 h9'
        rw [i2 d3 d6 d9 h3 h6 h9 h9', subst_append _ _ _ _ _ hnpd, e3, subst_pf]
        have hval : (match (afterPf Y).1 with
            | .millisecond => d3 | .microsecond => d6 | .nanosecond => d9 | .nanosecondDefault => d9) = v := by
          cases hh : (afterPf Y).1 <;> rw [hh] at hv <;> simp only
          · rw [h3] at hv; cases hv; rfl
          · rw [h6] at hv; cases hv; rfl
          · rw [h9] at hv; cases hv; rfl
          · rw [h9'] at hv; cases hv; rfl
        rw [hval]
        have : v.take 2 ++ (v.drop 2 ++ substFractions d3 d6 d9 (afterPf Y).2) = v ++ substFractions d3 d6 d9 (afterPf Y).2 := by
          rw [← List.append_assoc, List.take_append_drop]
        simp only [List.append_assoc]
        rw [this]

/-! ### strftime text and lexicographic order -/

theorem strftimeText_plain (other : Char → TM → Str) (t : TM) : ∀ D : Str, '%' ∉ D → strftimeText other t D = D := by
  intro D
  induction D with
  | nil => intro _; rfl
  | cons c D ih =>
    intro h
    have hc : c ≠ '%' := fun e => h (by simp [e])
    have hD : '%' ∉ D := fun hm => h (List.mem_cons_of_mem _ hm)
    cases D with
    | nil => rfl
    | cons d D => rw [strftimeText, if_neg hc, ih hD]

theorem pad2_spec (n : Nat) (h : n < 100) : IsFixedWidth 2 n (pad2 n) := by
  have h2 : (decNat n).length ≤ 2 := (decNat_len_le_iff 2 n (by decide)).mpr h
  have := fracDigits_spec 2 n h2
  unfold pad2
  split
  · rename_i hlt
    have h1 : (decNat n).length = 1 := by
      have := (decNat_len_le_iff 1 n (by decide)).mpr hlt
      have := decNat_length_pos n
      omega
    rw [h1] at this
    exact this
  · rename_i hge
    have h1 : (decNat n).length = 2 := by
      have := (decNat_len_le_iff 1 n (by decide)).not.mpr (by omega)
      omega
    rw [h1] at this
    exact this

theorem decNat_year (n : Nat) (h1 : 1000 ≤ n) (h2 : n ≤ 9999) : IsFixedWidth 4 n (decNat n) := by
  have a := (decNat_len_le_iff 4 n (by decide)).mpr (by omega)
  have b := (decNat_len_le_iff 3 n (by decide)).not.mpr (by omega)
  have := fracDigits_spec 4 n a
  have e : (decNat n).length = 4 := by omega
  rw [e] at this
  exact this

theorem lexLt_cons_self (c : Char) (a b : Str) : lexLt (c :: a) (c :: b) ↔ lexLt a b := by
  simp [lexLt]

theorem lexLt_irrefl (a : Str) : ¬ lexLt a a := by
  induction a with
  | nil => simp [lexLt]
  | cons c a ih => simp [lexLt, ih]

theorem lexLt_trans : ∀ {a b c : Str}, lexLt a b → lexLt b c → lexLt a c := by
  intro a
  induction a with
  | nil =>
    intro b c h1 h2
    cases b with
    | nil => exact absurd h1 (by simp [lexLt])
    | cons x b => cases c with
      | nil => exact absurd h2 (by simp [lexLt])
      | cons y c => simp [lexLt]
  | cons x a ih =>
    intro b c h1 h2
    cases b with
    | nil => exact absurd h1 (by simp [lexLt])
    | cons y b => cases c with
      | nil => exact absurd h2 (by simp [lexLt])
      | cons z c =>
        simp only [lexLt] at *
        rcases h1 with h1 | ⟨rfl, h1⟩
        · rcases h2 with h2 | ⟨rfl, h2⟩
          · left; omega
          · left; exact h1
        · rcases h2 with h2 | ⟨rfl, h2⟩
          · left; exact h2
          · right; exact ⟨rfl, ih h1 h2⟩

theorem numVal_lt_pow (s : Str) (h : ∀ c ∈ s, isDig c) : numVal s < 10 ^ s.length := by
  induction s using List.reverseRecOn with
  | nil => simp [numVal]
  | append_singleton s c ih =>
    rw [numVal_append_singleton]
    have h1 := ih (fun d hd => h d (by simp [hd]))
    have h2 : isDig c := h c (by simp)
    unfold isDig at h2
    unfold digitVal
    rw [List.length_append, List.length_singleton, Nat.pow_succ]
    omega

/-- Comparing two equally wide numerals followed by text. -/
theorem lexLt_fixed {w : Nat} : ∀ {m n : Nat} {s t a b : Str}, IsFixedWidth w m s → IsFixedWidth w n t →
    (lexLt (s ++ a) (t ++ b) ↔ m < n ∨ (m = n ∧ lexLt a b)) := by
  induction w with
  | zero =>
    intro m n s t a b hs ht
    obtain ⟨h1, _, h3⟩ := hs
    obtain ⟨k1, _, k3⟩ := ht
    have e1 := List.length_eq_zero_iff.mp h1
    have e2 := List.length_eq_zero_iff.mp k1
    subst e1; subst e2
    simp [numVal] at h3 k3
    subst h3; subst k3
    simp
  | succ w ih =>
    intro m n s t a b hs ht
    cases s with
    | nil => exact absurd hs.1 (by simp)
    | cons c s => cases t with
      | nil => exact absurd ht.1 (by simp)
      | cons d t =>
        obtain ⟨h1, h2, h3⟩ := hs
        obtain ⟨k1, k2, k3⟩ := ht
        rw [numVal_cons] at h3 k3
        have hl : s.length = w := by simpa using h1
        have kl : t.length = w := by simpa using k1
        have hs' : IsFixedWidth w (numVal s) s := ⟨hl, fun x hx => h2 x (by simp [hx]), rfl⟩
        have ht' : IsFixedWidth w (numVal t) t := ⟨kl, fun x hx => k2 x (by simp [hx]), rfl⟩
        have b1 := numVal_lt_pow s hs'.2.1
        have b2 := numVal_lt_pow t ht'.2.1
        have hc : isDig c := h2 c (by simp)
        have hd : isDig d := k2 d (by simp)
        rw [hl] at h3 b1
        rw [kl] at k3 b2
        unfold isDig at hc hd
        simp only [List.cons_append, lexLt]
        rw [ih hs' ht']
        subst h3; subst k3
        unfold digitVal
        generalize 10 ^ w = P at *
        by_cases hcd : c = d
        · subst hcd
          simp
        · have hne : c.toNat ≠ d.toNat := fun e => hcd (char_eq_of_toNat e)
          simp only [hcd, false_and, or_false]
          constructor
          · intro hlt
            left
            have : c.toNat - 48 + 1 ≤ d.toNat - 48 := by omega
            have := Nat.mul_le_mul_right P this
            rw [Nat.add_mul] at this
            omega
          · intro h
            by_contra hlt
            have : d.toNat - 48 + 1 ≤ c.toNat - 48 := by omega
            have := Nat.mul_le_mul_right P this
            rw [Nat.add_mul] at this
            omega

end G3
