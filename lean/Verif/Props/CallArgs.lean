import Verif.Spec.CallArgs
import Mathlib.Data.List.Nodup
import Mathlib.Data.List.Range
/-
C106: the arguments of a call through a sink handle.
-/
namespace G3.Props
open G3.Spec

variable {hollow : Str → Str}

/-! ### Storing and reading arguments -/

theorem keepArg_value {mem : Cells} {x : ArgForm} (hx : isValue x) : keepArg mem x = (designated mem x).map .own := by
  cases x <;> first | rfl | (cases hx; done)

theorem keepArgs_value {mem : Cells} {args : List ArgForm} (h : ∀ x ∈ args, isValue x) :
    args.mapM (keepArg mem) = (args.mapM (designated mem)).map (List.map .own) := by
  induction args with
  | nil => rfl
  | cons x xs ih =>
    rw [List.mapM_cons, List.mapM_cons, keepArg_value (h x (List.mem_cons_self ..)), ih fun y hy => h y (List.mem_cons_of_mem _ hy)]
    cases designated mem x with
    | none => rfl
    | some v => cases xs.mapM (designated mem) <;> rfl

theorem read_own (mem : Cells) (vs : List Str) : (vs.map Kept.own).mapM (readKept mem) = some vs := by
  induction vs with
  | nil => rfl
  | cons v vs ih => rw [List.map_cons, List.mapM_cons, ih]; rfl

theorem write_own (mem : Cells) (vs ws : List Str) : writeKept mem (vs.map Kept.own) ws = mem := by
  induction vs generalizing ws with
  | nil => cases ws <;> rfl
  | cons v vs ih => cases ws with
    | nil => rfl
    | cons w ws => exact ih ws

theorem write_other {mem : Cells} {a : Nat} {ks : List Kept} (h : Kept.addr a ∉ ks) (ws : List Str) : writeKept mem ks ws a = mem a := by
  induction ks generalizing mem ws with
  | nil => cases ws <;> rfl
  | cons k ks ih =>
    have h2 : Kept.addr a ∉ ks := fun hc => h (List.mem_cons_of_mem _ hc)
    cases ws with
    | nil => cases k <;> rfl
    | cons w ws =>
      cases k with
      | own v => exact ih h2 ws
      | addr b =>
        rw [writeKept, ih h2 ws]
        exact if_neg fun e => h (by rw [e]; exact List.mem_cons_self ..)

theorem read_kept {before later : Cells} {x : ArgForm} {k : Kept} (h : keepArg before x = some k) : readKept later k = found before later x := by
  cases x with
  | object a | moved a =>
    obtain ⟨v, hv, rfl⟩ := Option.map_eq_some_iff.1 h
    exact hv.symm
  | temp v | literal v | pointer a => cases h; rfl
  | array a | ref a =>
    simp only [keepArg] at h
    split at h <;> cases h
    rfl

theorem read_all {before later : Cells} {args : List ArgForm} {ks : List Kept} (h : args.mapM (keepArg before) = some ks) :
    ks.mapM (readKept later) = args.mapM (found before later) := by
  induction args generalizing ks with
  | nil => cases h; rfl
  | cons x xs ih =>
    rw [List.mapM_cons] at h
    cases hk : keepArg before x with
    | none => rw [hk] at h; cases h
    | some k =>
      cases hks : xs.mapM (keepArg before) with
      | none => rw [hk, hks] at h; cases h
      | some ks' =>
        rw [hk, hks] at h
        cases h
        rw [List.mapM_cons, List.mapM_cons, ih hks, read_kept hk]

theorem kept_addr {before : Cells} {args : List ArgForm} {ks : List Kept} {a : Nat} (h : args.mapM (keepArg before) = some ks)
    (ha : ∀ x ∈ args, behind x ≠ some a) : Kept.addr a ∉ ks := by
  induction args generalizing ks with
  | nil => cases h; exact List.not_mem_nil
  | cons x xs ih =>
    rw [List.mapM_cons] at h
    cases hk : keepArg before x with
    | none => rw [hk] at h; cases h
    | some k =>
      cases hks : xs.mapM (keepArg before) with
      | none => rw [hk, hks] at h; cases h
      | some ks' =>
        rw [hk, hks] at h
        cases h
        intro hm
        rcases List.mem_cons.1 hm with e | e
        · subst e
          have hx := ha x (List.mem_cons_self ..)
          cases x with
          | object b | moved b => obtain ⟨v, _, hv⟩ := Option.map_eq_some_iff.1 hk; cases hv
          | temp v | literal v => cases hk
          | pointer b => cases hk; exact hx rfl
          | array b | ref b =>
            simp only [keepArg] at hk
            split at hk <;> cases hk
            exact hx rfl
        · exact ih hks (fun y hy => ha y (List.mem_cons_of_mem _ hy)) e

theorem leaveArgs_spec {args : List ArgForm} (h : orderly args) (mem : Cells) (b : Nat) :
    args.foldl (leaveArg hollow) mem b = if b ∈ args.filterMap movedFrom then (mem b).map hollow else mem b := by
  induction args generalizing mem with
  | nil => rfl
  | cons x xs ih =>
    unfold orderly at h ih
    cases hm : movedFrom x with
    | none =>
      rw [List.filterMap_cons_none hm] at h ⊢
      rw [List.foldl_cons, ih h]
      have : leaveArg hollow mem x = mem := by cases x <;> first | rfl | (cases hm; done)
      rw [this]
    | some a =>
      rw [List.filterMap_cons_some hm] at h ⊢
      rw [List.nodup_cons] at h
      rw [List.foldl_cons, ih h.2]
      have : leaveArg hollow mem x = fun b => if b = a then (mem a).map hollow else mem b := by
        cases x <;> first | (cases hm; rfl) | (cases hm; done)
      rw [this]
      by_cases e : b = a
      · subst e
        rw [if_neg h.1, if_pos (List.mem_cons_self ..)]
        exact if_pos rfl
      · simp only [List.mem_cons, e, false_or, if_false]

theorem leave_alone {args : List ArgForm} {a : Nat} (h : ∀ x ∈ args, movedFrom x ≠ some a) (mem : Cells) : args.foldl (leaveArg hollow) mem a = mem a := by
  induction args generalizing mem with
  | nil => rfl
  | cons x xs ih =>
    rw [List.foldl_cons, ih (fun y hy => h y (List.mem_cons_of_mem _ hy))]
    have hx := h x (List.mem_cons_self ..)
    cases x with
    | moved b => exact if_neg fun e => hx (by rw [e]; rfl)
    | _ => rfl

/-! ### Runs -/

theorem callRun_append {s u : CallState} {l m : List CallLabel} : callRun hollow s (l ++ m) = some u ↔ ∃ t, callRun hollow s l = some t ∧ callRun hollow t m = some u := by
  induction l generalizing s with
  | nil => simp [callRun]
  | cons x xs ih =>
    simp only [List.cons_append, callRun]
    cases callStep hollow s x with
    | none => simp
    | some v => simpa using ih

theorem handleCall_cases {s s' : CallState} {f : SinkMethod} {args : List ArgForm} (h : handleCall hollow s f args = some s') :
    (s.expired = true ∧ s' = { s with futures := s.futures ++ [.badWeakPtr] }) ∨
    (s.expired = false ∧ ∃ ks, args.mapM (keepArg s.mem) = some ks ∧
      s' = { s with mem := args.foldl (leaveArg hollow) s.mem, queue := s.queue ++ [(s.accepted, f, ks)], accepted := s.accepted + 1,
                    futures := s.futures ++ [.task s.accepted] }) := by
  unfold handleCall at h
  split at h
  · next he => cases h; exact Or.inl ⟨he, rfl⟩
  · next he =>
    rw [Bool.not_eq_true] at he
    obtain ⟨⟨ks, m⟩, hk, rfl⟩ := Option.map_eq_some_iff.1 h
    obtain ⟨ks', hk', e⟩ := Option.map_eq_some_iff.1 hk
    cases e
    exact Or.inr ⟨he, ks, hk', rfl⟩

/-! ### Values -/

/-- A task that has only values, as the result that it will have. -/
def planned (e : Nat × SinkMethod × List Str) : Nat × CallEnd := (e.1, .done e.2.2 (e.2.1 e.2.2).2)

def inOrder (d : Direct) : List (Nat × CallEnd) := d.calls.zipIdx.map fun c => (c.2, .done c.1.1 c.1.2)

structure DirectInv (s : CallState) (d : Direct) (n : Nat) : Prop where
  ok : s.broken = false
  mem : s.mem = d.mem
  gone : s.expired = d.gone
  futures : s.futures = d.answers.map answer
  count : s.accepted = d.calls.length
  ran : s.ended.length = n
  queue : ∃ q : List (Nat × SinkMethod × List Str), s.queue = q.map (fun e => (e.1, e.2.1, e.2.2.map .own)) ∧ s.ended ++ q.map planned = inOrder d

theorem direct_step {s s' : CallState} {d : Direct} {n : Nat} {l : CallLabel} (h : DirectInv s d n) (hv : ValuesOnly [l]) (hs : callStep hollow s l = some s') :
    DirectInv s' (d.step hollow l) (n + execs [l]) := by
  unfold callStep at hs
  rw [if_neg (by simp [h.ok])] at hs
  cases l with
  | set a v => cases hs; exact ⟨h.ok, by rw [Direct.step, h.mem], h.gone, h.futures, h.count, h.ran, h.queue⟩
  | expire => cases hs; exact ⟨h.ok, h.mem, rfl, h.futures, h.count, h.ran, h.queue⟩
  | get no =>
    simp only at hs
    split at hs <;> cases hs
    exact h
  | exec =>
    obtain ⟨q, hq, he⟩ := h.queue
    cases q with
    | nil => rw [List.map_nil] at hq; rw [hq] at hs; cases hs
    | cons e q =>
      rw [List.map_cons] at hq
      rw [hq] at hs
      simp only [runTask, read_own, write_own] at hs
      cases hs
      refine ⟨h.ok, h.mem, h.gone, h.futures, h.count, ?_, q, rfl, ?_⟩
      · simp [h.ran, execs]
      · rw [show inOrder (d.step hollow .exec) = inOrder d from rfl, ← he]
        simp [planned]
  | call f args =>
    obtain ⟨hval, hord⟩ := hv f args (List.mem_cons_self ..)
    rcases handleCall_cases hs with ⟨he, rfl⟩ | ⟨he, ks, hk, rfl⟩
    · have : d.step hollow (.call f args) = { d with answers := d.answers ++ [none] } := by
        rw [Direct.step, ← h.gone, he]; rfl
      rw [this]
      exact ⟨h.ok, h.mem, h.gone, by simp [h.futures, answer], h.count, h.ran, h.queue⟩
    · rw [keepArgs_value hval] at hk
      obtain ⟨vs, hvs, rfl⟩ := Option.map_eq_some_iff.1 hk
      have : d.step hollow (.call f args) =
        { d with mem := fun b => if b ∈ args.filterMap movedFrom then (d.mem b).map hollow else d.mem b,
                 answers := d.answers ++ [some d.calls.length], calls := d.calls ++ [(vs, (f vs).2)] } := by
        rw [Direct.step, ← h.gone, he, ← h.mem, hvs]; rfl
      rw [this]
      obtain ⟨q, hq, hn⟩ := h.queue
      refine ⟨h.ok, ?_, h.gone, ?_, ?_, h.ran, q ++ [(s.accepted, f, vs)], ?_, ?_⟩
      · funext b
        show args.foldl (leaveArg hollow) s.mem b = _
        rw [leaveArgs_spec hord, h.mem]
      · simp [h.futures, answer, h.count]
      · simp [h.count]
      · simp [hq]
      · rw [List.map_append, ← List.append_assoc, hn]
        simp [inOrder, planned, List.zipIdx_append, h.count]

theorem execs_cons (l : CallLabel) (ls : List CallLabel) : execs (l :: ls) = execs [l] + execs ls := by
  cases l <;> simp [execs, Nat.add_comm]

theorem direct_run {s s' : CallState} {d : Direct} {n : Nat} {ls : List CallLabel} (h : DirectInv s d n) (hv : ValuesOnly ls) (hs : callRun hollow s ls = some s') :
    DirectInv s' (d.run hollow ls) (n + execs ls) := by
  induction ls generalizing s d n with
  | nil => cases hs; exact h
  | cons l ls ih =>
    simp only [callRun] at hs
    obtain ⟨u, hu, hr⟩ := Option.bind_eq_some_iff.1 hs
    have h1 := direct_step h (fun f args hm => hv f args (by rw [List.mem_singleton.1 hm]; exact List.mem_cons_self ..)) hu
    rw [execs_cons, ← Nat.add_assoc]
    exact ih h1 (fun f args hm => hv f args (List.mem_cons_of_mem _ hm)) hr

/-- C106 for programs that pass values (names of objects, temporaries, moved objects, string literals): whatever the program does with its objects
after a call, and whenever the thread of the sink gets to it, memory, futures and results are the same as if every call were made at once. -/
theorem C106_values_partial {mem : Cells} {ls : List CallLabel} {s : CallState} (h : callRun hollow (.start mem) ls = some s) (hv : ValuesOnly ls) :
    let d := Direct.run hollow { mem := mem } ls
    s.broken = false ∧ s.mem = d.mem ∧ s.expired = d.gone ∧ s.futures = d.answers.map answer ∧
    s.ended = ((d.calls.zipIdx.map fun c => (c.2, CallEnd.done c.1.1 c.1.2))).take (execs ls) ∧ s.queue.length = d.calls.length - execs ls := by
  have I := direct_run (d := { mem := mem }) (n := 0) ⟨rfl, rfl, rfl, rfl, rfl, rfl, [], rfl, rfl⟩ hv h
  obtain ⟨q, hq, hn⟩ := I.queue
  have hr := I.ran
  rw [Nat.zero_add] at hr
  refine ⟨I.ok, I.mem, I.gone, I.futures, ?_, ?_⟩
  · rw [← hr]
    show s.ended = (inOrder _).take _
    rw [← hn, List.take_left']
    rfl
  · have := congrArg List.length hn
    simp only [inOrder, List.length_append, List.length_map, List.length_zipIdx] at this
    rw [hq, List.length_map]
    omega

/-! ### Any arguments -/

structure NumInv (s : CallState) : Prop where
  nums : s.ended.map Prod.fst ++ s.queue.map Prod.fst = List.range s.accepted

theorem num_step {s s' : CallState} {l : CallLabel} (h : NumInv s) (hs : callStep hollow s l = some s') : NumInv s' := by
  unfold callStep at hs
  split at hs
  · cases hs
  cases l with
  | set a v => cases hs; exact ⟨h.nums⟩
  | expire => cases hs; exact ⟨h.nums⟩
  | get no =>
    simp only at hs
    split at hs <;> cases hs
    exact h
  | exec =>
    simp only at hs
    split at hs
    · cases hs
    · next no f ks q hq =>
      cases hs
      have := h.nums
      rw [hq] at this
      unfold runTask
      split <;> exact ⟨by simpa using this⟩
  | call f args =>
    rcases handleCall_cases hs with ⟨_, rfl⟩ | ⟨_, ks, _, rfl⟩
    · exact ⟨h.nums⟩
    · refine ⟨?_⟩
      rw [List.range_succ, ← h.nums]
      simp

theorem num_run {s s' : CallState} {ls : List CallLabel} (h : NumInv s) (hs : callRun hollow s ls = some s') : NumInv s' := by
  induction ls generalizing s with
  | nil => cases hs; exact h
  | cons l ls ih =>
    obtain ⟨u, hu, hr⟩ := Option.bind_eq_some_iff.1 hs
    exact ih (num_step h hu) hr

theorem ended_step {s s' : CallState} {l : CallLabel} (hs : callStep hollow s l = some s') : ∃ e, s'.ended = s.ended ++ e := by
  unfold callStep at hs
  split at hs
  · cases hs
  cases l with
  | set a v => cases hs; exact ⟨[], by simp⟩
  | expire => cases hs; exact ⟨[], by simp⟩
  | get no =>
    simp only at hs
    split at hs <;> cases hs
    exact ⟨[], by simp⟩
  | exec =>
    simp only at hs
    split at hs
    · cases hs
    · cases hs
      unfold runTask
      split <;> exact ⟨_, rfl⟩
  | call f args => rcases handleCall_cases hs with ⟨_, rfl⟩ | ⟨_, ks, _, rfl⟩ <;> exact ⟨[], by simp⟩

theorem ended_run {s s' : CallState} {ls : List CallLabel} (hs : callRun hollow s ls = some s') : ∃ e, s'.ended = s.ended ++ e := by
  induction ls generalizing s with
  | nil => cases hs; exact ⟨[], by simp⟩
  | cons l ls ih =>
    obtain ⟨u, hu, hr⟩ := Option.bind_eq_some_iff.1 hs
    obtain ⟨e1, h1⟩ := ended_step hu
    obtain ⟨e2, h2⟩ := ih hr
    exact ⟨e1 ++ e2, by rw [h2, h1, List.append_assoc]⟩

theorem num_unique {s : CallState} (h : NumInv s) {no : Nat} {a b : CallEnd} (ha : (no, a) ∈ s.ended) (hb : (no, b) ∈ s.ended) : a = b := by
  have hn : (s.ended.map Prod.fst).Nodup := (List.nodup_append.1 (h.nums ▸ List.nodup_range)).1
  exact (Prod.mk.inj (List.inj_on_of_nodup_map hn ha hb rfl)).2

theorem queue_step {t t' : CallState} {l : CallLabel} {q1 q2 : List (Nat × SinkMethod × List Kept)} {e : Nat × SinkMethod × List Kept}
    (hs : callStep hollow t l = some t') (hq : t.queue = q1 ++ e :: q2) :
    (l = .exec ∧ q1 = [] ∧ t' = runTask { t with queue := q2 } e.1 e.2.1 e.2.2) ∨
    ∃ q1' q2', t'.queue = q1' ++ e :: q2' ∧ (∀ x ∈ q1', x ∈ q1) ∧
      ∀ a, (∀ x ∈ q1, Kept.addr a ∉ x.2.2) → LetsAlone a l → t'.mem a = t.mem a := by
  unfold callStep at hs
  split at hs
  · cases hs
  cases l with
  | set a v =>
    cases hs
    exact Or.inr ⟨q1, q2, hq, fun _ h => h, fun b _ hb => if_neg fun e => hb e.symm⟩
  | expire => cases hs; exact Or.inr ⟨q1, q2, hq, fun _ h => h, fun _ _ _ => rfl⟩
  | get no =>
    simp only at hs
    split at hs <;> cases hs
    exact Or.inr ⟨q1, q2, hq, fun _ h => h, fun _ _ _ => rfl⟩
  | exec =>
    cases q1 with
    | nil =>
      rw [List.nil_append] at hq
      rw [hq] at hs
      cases hs
      exact Or.inl ⟨rfl, rfl, rfl⟩
    | cons x q1 =>
      rw [List.cons_append] at hq
      rw [hq] at hs
      cases hs
      refine Or.inr ⟨q1, q2, ?_, fun _ h => List.mem_cons_of_mem _ h, fun a ha _ => ?_⟩
      · unfold runTask; split <;> rfl
      · unfold runTask
        split
        · exact write_other (ha x (List.mem_cons_self ..)) _
        · rfl
  | call f args =>
    rcases handleCall_cases hs with ⟨_, rfl⟩ | ⟨_, ks, _, rfl⟩
    · exact Or.inr ⟨q1, q2, hq, fun _ h => h, fun _ _ _ => rfl⟩
    · exact Or.inr ⟨q1, q2 ++ [(t.accepted, f, ks)], by simp [hq], fun _ h => h, fun a _ ha => leave_alone ha _⟩

theorem run_until {t s : CallState} {ls : List CallLabel} {no : Nat} {f : SinkMethod} {ks : List Kept} {q1 q2 : List (Nat × SinkMethod × List Kept)} {e : CallEnd}
    (hs : callRun hollow t ls = some s) (hq : t.queue = q1 ++ (no, f, ks) :: q2) (hi : NumInv t) (he : (no, e) ∈ s.ended) :
    ∃ mid post m, ls = mid ++ .exec :: post ∧ callRun hollow t mid = some m ∧ e = endsWith f (ks.mapM (readKept m.mem)) ∧
      ∀ a, (∀ x ∈ q1, Kept.addr a ∉ x.2.2) → (∀ l ∈ mid, LetsAlone a l) → m.mem a = t.mem a := by
  induction ls generalizing t q1 q2 with
  | nil =>
    cases hs
    exfalso
    have hn := hi.nums ▸ List.nodup_range (n := s.accepted)
    have h1 : no ∈ s.ended.map Prod.fst := List.mem_map.2 ⟨_, he, rfl⟩
    have h2 : no ∈ s.queue.map Prod.fst := List.mem_map.2 ⟨(no, f, ks), by rw [hq]; simp, rfl⟩
    exact (List.nodup_append.1 hn).2.2 no h1 no h2 rfl
  | cons l ls ih =>
    obtain ⟨u, hu, hr⟩ := Option.bind_eq_some_iff.1 hs
    rcases queue_step hu hq with ⟨rfl, rfl, hx⟩ | ⟨q1', q2', hq', hsub, hmem⟩
    · refine ⟨[], ls, t, rfl, rfl, ?_, fun _ _ _ => rfl⟩
      have hin : (no, endsWith f (ks.mapM (readKept t.mem))) ∈ u.ended := by
        rw [hx]
        unfold runTask
        show _ ∈ (match ks.mapM (readKept t.mem) with | some vs => _ | none => _ : CallState).ended
        cases ks.mapM (readKept t.mem) <;> simp [endsWith]
      obtain ⟨e2, h2⟩ := ended_run hr
      exact num_unique (num_run (num_step hi hu) hr) he (by rw [h2]; exact List.mem_append_left _ hin)
    · obtain ⟨mid, post, m, h1, h2, h3, h4⟩ := ih hr hq' (num_step hi hu)
      refine ⟨l :: mid, post, m, by rw [h1]; rfl, by simp only [callRun, hu]; exact h2, h3, fun a ha hl => ?_⟩
      rw [h4 a (fun x hx => ha x (hsub x hx)) (fun l' hl' => hl l' (List.mem_cons_of_mem _ hl')), hmem a ha (hl l (List.mem_cons_self ..))]

theorem start_num (mem : Cells) : NumInv (.start mem) := ⟨rfl⟩

/-- C106: what a call with any arguments finds. Values are as at the call; behind a pointer, an array or a `std::ref` it finds what is there when the thread of
the sink comes to the call, and if nothing is there any more the behaviour is undefined. -/
theorem C106_finds {mem : Cells} {pre post : List CallLabel} {p s : CallState} {f : SinkMethod} {args : List ArgForm} {e : CallEnd}
    (hp : callRun hollow (.start mem) pre = some p) (hx : p.expired = false) (hs : callRun hollow p (.call f args :: post) = some s)
    (he : (p.accepted, e) ∈ s.ended) :
    ∃ mid rest m, post = mid ++ .exec :: rest ∧ callRun hollow p (.call f args :: mid) = some m ∧ e = endsWith f (args.mapM (found p.mem m.mem)) := by
  obtain ⟨u, hu, hr⟩ := Option.bind_eq_some_iff.1 hs
  have hu' := hu
  unfold callStep at hu'
  split at hu'
  · cases hu'
  rcases handleCall_cases hu' with ⟨h1, _⟩ | ⟨_, ks, hk, rfl⟩
  · rw [hx] at h1; cases h1
  obtain ⟨mid, rest, m, h1, h2, h3, _⟩ := run_until hr rfl (num_step (num_run (start_num mem) hp) hu) he
  refine ⟨mid, rest, m, h1, ?_, by rw [h3, read_all hk]⟩
  simp only [callRun, hu]
  exact h2

theorem found_all {before later : Cells} {args : List ArgForm} {vs : List Str} (hv : args.mapM (designated before) = some vs) :
    args.mapM (found before later) = some vs ↔ ∀ x ∈ args, ∀ a, behind x = some a → later a = before a := by
  induction args generalizing vs with
  | nil => simp_all
  | cons x xs ih =>
    rw [List.mapM_cons] at hv
    cases hk : designated before x with
    | none => rw [hk] at hv; cases hv
    | some v =>
      cases hks : xs.mapM (designated before) with
      | none => rw [hk, hks] at hv; cases hv
      | some vs' =>
        rw [hk, hks] at hv
        cases hv
        have ih' := ih hks
        have hone : found before later x = some v ↔ ∀ a, behind x = some a → later a = before a := by
          unfold found
          cases hb : behind x with
          | none => simpa using hk
          | some a =>
            have : designated before x = before a := by cases x <;> first | (cases hb; done) | (cases hb; rfl)
            rw [this] at hk
            simp [hk]
        rw [List.mapM_cons, List.forall_mem_cons, ← ih', ← hone]
        cases found before later x with
        | none => simp
        | some w =>
          cases xs.mapM (found before later) with
          | none => simp
          | some ws => simp

theorem endsWith_done {f : SinkMethod} {r : Option (List Str)} {vs : List Str} : endsWith f r = .done vs (f vs).2 ↔ r = some vs := by
  cases r with
  | none => simp [endsWith]
  | some ws =>
    simp only [endsWith, CallEnd.done.injEq, Option.some.injEq]
    exact ⟨fun h => h.1, fun h => ⟨h, by rw [h]⟩⟩

/-- C106, exactly: the method gets the arguments of the time of the call if and only if, when the thread of the sink comes to the call, everything
that its pointers, arrays and references lead to is as it was at the call. -/
theorem C106_exact {mem : Cells} {pre post : List CallLabel} {p s : CallState} {f : SinkMethod} {args : List ArgForm} {e : CallEnd} {vs : List Str}
    (hp : callRun hollow (.start mem) pre = some p) (hx : p.expired = false) (hs : callRun hollow p (.call f args :: post) = some s)
    (he : (p.accepted, e) ∈ s.ended) (hv : args.mapM (designated p.mem) = some vs) :
    ∃ mid rest m, post = mid ++ .exec :: rest ∧ callRun hollow p (.call f args :: mid) = some m ∧
      (e = .done vs (f vs).2 ↔ ∀ x ∈ args, ∀ a, behind x = some a → m.mem a = p.mem a) := by
  obtain ⟨mid, rest, m, h1, h2, rfl⟩ := C106_finds hp hx hs he
  exact ⟨mid, rest, m, h1, h2, by rw [endsWith_done, found_all hv]⟩

theorem queue_from {mem : Cells} {pre : List CallLabel} {p : CallState} {a : Nat} (hp : callRun hollow (.start mem) pre = some p) (ha : NotPassed a pre) :
    ∀ x ∈ p.queue, Kept.addr a ∉ x.2.2 := by
  suffices H : ∀ (s : CallState), (∀ x ∈ s.queue, Kept.addr a ∉ x.2.2) → ∀ pre p, callRun hollow s pre = some p → NotPassed a pre → ∀ x ∈ p.queue, Kept.addr a ∉ x.2.2 from
    H (.start mem) (fun x hx => by cases hx) pre p hp ha
  intro s hs pre p hp ha
  induction pre generalizing s with
  | nil => cases hp; exact hs
  | cons l ls ih =>
    obtain ⟨u, hu, hr⟩ := Option.bind_eq_some_iff.1 hp
    refine ih u ?_ hr fun f args hm => ha f args (List.mem_cons_of_mem _ hm)
    unfold callStep at hu
    split at hu
    · cases hu
    cases l with
    | set a v => cases hu; exact hs
    | expire => cases hu; exact hs
    | get no =>
      simp only at hu
      split at hu <;> cases hu
      exact hs
    | exec =>
      simp only at hu
      split at hu
      · cases hu
      · next no f ks q hq =>
        cases hu
        have : (runTask { s with queue := q } no f ks).queue = q := by unfold runTask; split <;> rfl
        rw [this]
        exact fun x hx => hs x (by rw [hq]; exact List.mem_cons_of_mem _ hx)
    | call f args =>
      rcases handleCall_cases hu with ⟨_, rfl⟩ | ⟨_, ks, hk, rfl⟩
      · exact hs
      · intro x hx
        rcases List.mem_append.1 hx with h | h
        · exact hs x h
        · rw [List.mem_singleton.1 h]
          exact kept_addr hk (ha f args (List.mem_cons_self ..))

/-- C106: the caller who passes pointers, arrays or references and returnsEarly what they lead to alone until the future is ready gets the call made with the
arguments of the time of the call, if no earlier call leads to the same objects. After that it may do what it likes. -/
theorem C106_waiting {mem : Cells} {pre mid post : List CallLabel} {p s : CallState} {f : SinkMethod} {args : List ArgForm} {vs : List Str}
    (hp : callRun hollow (.start mem) pre = some p) (hx : p.expired = false) (hv : args.mapM (designated p.mem) = some vs)
    (hs : callRun hollow p (.call f args :: mid ++ .get p.accepted :: post) = some s)
    (hn : ∀ x ∈ args, ∀ a, behind x = some a → NotPassed a pre ∧ ∀ l ∈ .call f args :: mid, LetsAlone a l) :
    (p.accepted, .done vs (f vs).2) ∈ s.ended := by
  obtain ⟨g, hg, hrest⟩ := callRun_append.1 hs
  have hget : ∃ e, (p.accepted, e) ∈ g.ended := by
    obtain ⟨u, hu, _⟩ := Option.bind_eq_some_iff.1 hrest
    unfold callStep at hu
    split at hu
    · cases hu
    simp only at hu
    split at hu
    · next h =>
      obtain ⟨⟨no, e⟩, h1, h2⟩ := List.any_eq_true.1 h
      have : no = p.accepted := eq_of_beq h2
      subst this
      exact ⟨e, h1⟩
    · cases hu
  obtain ⟨e, he⟩ := hget
  obtain ⟨u, hu, hr⟩ := Option.bind_eq_some_iff.1 hg
  have hu' := hu
  unfold callStep at hu'
  split at hu'
  · cases hu'
  rcases handleCall_cases hu' with ⟨h1, _⟩ | ⟨_, ks, hk, rfl⟩
  · rw [hx] at h1; cases h1
  obtain ⟨mid', rest, m, h1, h2, h3, h4⟩ := run_until hr rfl (num_step (num_run (start_num mem) hp) hu) he
  have heq : e = .done vs (f vs).2 := by
    rw [h3, read_all hk, endsWith_done, found_all hv]
    intro x hxa a ha
    obtain ⟨g1, g2⟩ := hn x hxa a ha
    rw [h4 a (queue_from hp g1) fun l hl => g2 l (List.mem_cons_of_mem _ (by rw [h1]; exact List.mem_append_left _ hl))]
    exact leave_alone (g2 _ (List.mem_cons_self ..)) _
  subst heq
  obtain ⟨e2, h5⟩ := ended_run hrest
  rw [h5]
  exact List.mem_append_left _ he

/-- C106: a call through a handle whose sink is gone touches nothing: the caller's objects stay as they are, even those passed with `std::move`,
no task reaches any thread, and the future has `bad_weak_ptr` at once. -/
theorem C106_expired {s s' : CallState} {f : SinkMethod} {args : List ArgForm} (hx : s.expired = true) (h : callStep hollow s (.call f args) = some s') :
    s'.mem = s.mem ∧ s'.queue = s.queue ∧ s'.ended = s.ended ∧ s'.accepted = s.accepted ∧ s'.futures = s.futures ++ [.badWeakPtr] := by
  unfold callStep at h
  split at h
  · cases h
  rcases handleCall_cases h with ⟨_, rfl⟩ | ⟨h1, _⟩
  · exact ⟨rfl, rfl, rfl, rfl, rfl⟩
  · rw [hx] at h1; cases h1

theorem write_here {mem : Cells} {a : Nat} {v : Str} {ks : List Kept} {ws : List Str} {i : Nat} (hi : ks[i]? = some (.addr a)) (hw : ws[i]? = some v)
    (ho : ∀ j, ks[j]? = some (.addr a) → j = i) : writeKept mem ks ws a = some v := by
  induction ks generalizing mem ws i with
  | nil => cases hi
  | cons k ks ih =>
    cases ws with
    | nil => cases hw
    | cons w ws =>
      cases i with
      | zero =>
        cases hi
        cases hw
        rw [writeKept, write_other]
        · exact if_pos rfl
        · intro hm
          obtain ⟨j, hj⟩ := List.getElem?_of_mem hm
          have := ho (j + 1) (by simpa using hj)
          omega
      | succ i =>
        rw [List.getElem?_cons_succ] at hi hw
        have ho' : ∀ j, ks[j]? = some (.addr a) → j = i := fun j hj => by
          have := ho (j + 1) (by simpa using hj)
          omega
        cases k with
        | own x => exact ih hi hw ho'
        | addr b => exact ih hi hw ho'

theorem kept_behind {before : Cells} {args : List ArgForm} {ks : List Kept} {a i : Nat} (h : args.mapM (keepArg before) = some ks) :
    ks[i]? = some (.addr a) ↔ ∃ x, args[i]? = some x ∧ behind x = some a := by
  induction args generalizing ks i with
  | nil => cases h; simp
  | cons x xs ih =>
    rw [List.mapM_cons] at h
    cases hk : keepArg before x with
    | none => rw [hk] at h; cases h
    | some k =>
      cases hks : xs.mapM (keepArg before) with
      | none => rw [hk, hks] at h; cases h
      | some ks' =>
        rw [hk, hks] at h
        cases h
        cases i with
        | succ i => simpa using ih hks
        | zero =>
          have : k = .addr a ↔ behind x = some a := by
            cases x with
            | object b | moved b => obtain ⟨v, _, rfl⟩ := Option.map_eq_some_iff.1 hk; simp [behind]
            | temp v | literal v => cases hk; simp [behind]
            | pointer b => cases hk; simp [behind]
            | array b | ref b =>
              simp only [keepArg] at hk
              split at hk <;> cases hk
              simp [behind]
          simpa using this

/-- C106: what a method writes to its parameters (references, pointers) reaches the objects of the program that pointers, arrays and references lead to, and nothing else: a
method never changes an object that is passed by its name. `before`: the memory at the call. -/
theorem C106_fills {before : Cells} {t s : CallState} {no : Nat} {f : SinkMethod} {args : List ArgForm} {vs : List Str} {ks : List Kept}
    {q : List (Nat × SinkMethod × List Kept)} (hk : args.mapM (keepArg before) = some ks) (ht : t.queue = (no, f, ks) :: q)
    (hs : callStep hollow t .exec = some s) (hv : args.mapM (found before t.mem) = some vs) (a : Nat) :
    ((∀ x ∈ args, behind x ≠ some a) → s.mem a = t.mem a) ∧
    (∀ (i : Nat) x v, args[i]? = some x → behind x = some a → (f vs).1[i]? = some v → (∀ (j : Nat) y, args[j]? = some y → behind y = some a → j = i) →
      s.mem a = some v) := by
  unfold callStep at hs
  split at hs
  · cases hs
  rw [ht] at hs
  cases hs
  have hr : ks.mapM (readKept t.mem) = some vs := by rw [read_all hk]; exact hv
  have hm : (runTask { t with queue := q } no f ks).mem = writeKept t.mem ks (f vs).1 := by
    unfold runTask
    rw [hr]
  rw [hm]
  refine ⟨fun h => write_other (kept_addr hk h) _, fun i x v h1 h2 h3 h4 => write_here ((kept_behind hk).2 ⟨x, h1, h2⟩) h3 fun j hj => ?_⟩
  obtain ⟨y, h5, h6⟩ := (kept_behind hk).1 hj
  exact h4 j y h5 h6

/-! ### The code does not do it for arrays, pointers and references -/

def noHollow : Str → Str := fun _ => []
def echo : SinkMethod := fun vs => (vs, vs.flatten)
/-- `fill(std::string& out)` -/
def fills : SinkMethod := fun _ => (["new".toList], [])
def oneBuffer : Cells := fun a => if a = 0 then some "first".toList else none

/-- `char name[] = "first"; handle->call(&FileSink::changeLogFile, name); strcpy(name, "second");` -/
def reuse : List CallLabel := [.call echo [.array 0], .set 0 (some "second".toList), .exec]
/-- The same, but the function with `name` returns before the call is made. -/
def returnsEarly : List CallLabel := [.call echo [.array 0], .set 0 none, .exec]

/-- C106 is false: a call with a `char` array gets what is in the array later, or what is no longer there. -/
theorem C106_negation :
    ¬ ∀ (mem : Cells) (pre post : List CallLabel) (p s : CallState) (f : SinkMethod) (args : List ArgForm) (e : CallEnd) (vs : List Str),
      callRun noHollow (.start mem) pre = some p → p.expired = false → callRun noHollow p (.call f args :: post) = some s → (p.accepted, e) ∈ s.ended →
      args.mapM (designated p.mem) = some vs → e = .done vs (f vs).2 := by
  intro h
  obtain ⟨s, hs, he⟩ : ∃ s, callRun noHollow (.start oneBuffer) reuse = some s ∧ s.ended = [(0, .done ["second".toList] "second".toList)] := ⟨_, rfl, rfl⟩
  have := h oneBuffer [] [.set 0 (some "second".toList), .exec] (.start oneBuffer) s echo [.array 0] (.done ["second".toList] "second".toList) ["first".toList]
    rfl rfl hs (by rw [he]; exact List.mem_singleton.2 rfl) rfl
  revert this
  decide

/-- The array is gone when the call is made. -/
theorem C106_negation_gone : ∃ s, callRun noHollow (.start oneBuffer) returnsEarly = some s ∧ s.ended = [(0, .dangling)] ∧ s.broken = true := ⟨_, rfl, rfl, rfl⟩

/-- C106: an access to an object that is gone is undefined behaviour, so nothing is said about what comes after it: it is the last end of a call in an execution, and there
is one exactly if the execution has stopped there. -/
theorem C106_stops {mem : Cells} {ls : List CallLabel} {s : CallState} (h : callRun hollow (.start mem) ls = some s) :
    (s.broken = true ↔ ∃ no, (no, CallEnd.dangling) ∈ s.ended) ∧ (∀ no a b, s.ended = a ++ (no, .dangling) :: b → b = []) ∧
    (s.broken = true → ∀ l, callStep hollow s l = none) := by
  have stop : ∀ {s : CallState}, s.broken = true → ∀ l, callStep hollow s l = none := fun hb l => by unfold callStep; rw [if_pos hb]
  suffices H : ∀ (ls : List CallLabel) (t s : CallState), (if t.broken then ∃ no a, t.ended = a ++ [(no, CallEnd.dangling)] ∧ ∀ no, (no, .dangling) ∉ a else ∀ no, (no, .dangling) ∉ t.ended) →
      callRun hollow t ls = some s → (if s.broken then ∃ no a, s.ended = a ++ [(no, CallEnd.dangling)] ∧ ∀ no, (no, .dangling) ∉ a else ∀ no, (no, .dangling) ∉ s.ended) by
    have I := H ls (.start mem) s (by simp [CallState.start]) h
    cases hb : s.broken with
    | true =>
      rw [if_pos hb] at I
      obtain ⟨no, a, he, ha⟩ := I
      refine ⟨⟨fun _ => ⟨no, by rw [he]; simp⟩, fun _ => rfl⟩, ?_, fun _ => stop hb⟩
      intro n2 c d hd
      rcases List.eq_nil_or_concat d with rfl | ⟨d', x, rfl⟩
      · rfl
      · exfalso
        rw [he, List.concat_eq_append, ← List.cons_append, ← List.append_assoc] at hd
        exact ha n2 (by rw [(List.append_inj' hd rfl).1]; simp)
    | false =>
      rw [if_neg (by simp [hb])] at I
      refine ⟨⟨(fun e => by cases e), (fun ⟨no, e⟩ => absurd e (I no))⟩, ?_, (fun e => by cases e)⟩
      intro no a b e
      exact absurd (by rw [e]; simp) (I no)
  intro ls
  induction ls with
  | nil => intro t s I h; cases h; exact I
  | cons l ls ih =>
    intro t s I h
    obtain ⟨u, hu, h⟩ := Option.bind_eq_some_iff.1 h
    refine ih u s ?_ h
    unfold callStep at hu
    split at hu
    · cases hu
    next hb =>
    rw [if_neg hb] at I
    have same : u.broken = t.broken → u.ended = t.ended → (if u.broken then ∃ no a, u.ended = a ++ [(no, CallEnd.dangling)] ∧ ∀ no, (no, .dangling) ∉ a else ∀ no, (no, .dangling) ∉ u.ended) := by
      intro e1 e2
      rw [e1, e2, if_neg hb]; exact I
    cases l with
    | set a v => cases hu; exact same rfl rfl
    | call f args =>
      rcases handleCall_cases hu with ⟨_, rfl⟩ | ⟨_, ks, _, rfl⟩ <;> exact same rfl rfl
    | expire => cases hu; exact same rfl rfl
    | exec =>
      simp only at hu
      split at hu
      · cases hu
      · next no f ks q _ =>
        cases hu
        unfold runTask
        split
        · rw [if_neg hb]
          intro no2 e
          rcases List.mem_append.1 e with e | e
          · exact I no2 e
          · cases List.mem_singleton.1 e
        · rw [if_pos rfl]
          exact ⟨no, _, rfl, I⟩
    | get no =>
      simp only at hu
      split at hu
      · cases hu; exact same rfl rfl
      · cases hu

/-! ### Concrete cases -/

/-- Objects, temporaries and moved objects; the program reuses its objects before the sink runs anything. -/
def goValues : List CallLabel :=
  [.call echo [.object 0, .temp "x".toList], .call fills [.object 0], .call echo [.moved 0], .set 0 none, .expire, .call echo [.temp "late".toList], .exec, .exec, .exec]

example : ∃ s, callRun noHollow (.start oneBuffer) goValues = some s ∧
    s.ended = [(0, .done ["first".toList, "x".toList] "firstx".toList), (1, .done ["first".toList] []), (2, .done ["first".toList] "first".toList)] ∧
    s.futures = [.task 0, .task 1, .task 2, .badWeakPtr] := ⟨_, rfl, rfl, rfl⟩

example : ValuesOnly goValues := by
  intro f args h
  simp only [goValues, List.mem_cons, reduceCtorEq, CallLabel.call.injEq, List.not_mem_nil, or_false, false_or] at h
  rcases h with ⟨_, rfl⟩ | ⟨_, rfl⟩ | ⟨_, rfl⟩ | ⟨_, rfl⟩ <;> exact ⟨by simp [isValue, behind], by unfold orderly; decide⟩

/-- Waiting for the future makes the call with an array safe; the method may even fill the array. -/
def goWait : List CallLabel := [.call fills [.array 0]] ++ [.exec] ++ .get 0 :: [.set 0 none]

example : ∃ s, callRun noHollow (.start oneBuffer) goWait = some s ∧ s.ended = [(0, .done ["first".toList] [])] := ⟨_, rfl, rfl⟩
example : ∃ s, callRun noHollow (.start oneBuffer) [.call fills [.array 0], .exec] = some s ∧ s.mem 0 = some "new".toList := ⟨_, rfl, rfl⟩
example : ∃ s, callRun noHollow (.start oneBuffer) [.call fills [.object 0], .exec] = some s ∧ s.mem 0 = some "first".toList := ⟨_, rfl, rfl⟩
example : ∀ x ∈ [ArgForm.array 0], ∀ a, behind x = some a → NotPassed a [] ∧ ∀ l ∈ .call fills [.array 0] :: [CallLabel.exec], LetsAlone a l := by
  intro x hx a ha
  rw [List.mem_singleton.1 hx] at ha
  cases ha
  exact ⟨fun _ _ h => (List.not_mem_nil h).elim, by simp [LetsAlone, movedFrom]⟩

end G3.Props
