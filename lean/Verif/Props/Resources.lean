import Verif.Spec.Resources
import Mathlib.Data.List.Nodup
import Mathlib.Data.List.Range
/- C103: requests for memory and threads that fail. -/
namespace G3.Props
open G3 G3.Spec

variable {σ : Supply} {s : ScState}

/-! ### Pieces -/

theorem r_mem (σ : Supply) (s : ScState) :
    (σ.ok s.req = true ∧ Sc.mem σ s = (.ok, { s with req := s.req + 1 })) ∨ (σ.ok s.req = false ∧ Sc.mem σ s = (.threw .badAlloc, { s with req := s.req + 1 })) := by
  unfold Sc.mem
  cases h : σ.ok s.req
  · exact Or.inr ⟨rfl, by simp⟩
  · exact Or.inl ⟨rfl, by simp⟩

theorem seq_ok {x y : Sc} {s' : ScState} (h : x σ s = (.ok, s')) : (x ⨟ y) σ s = y σ s' := by unfold Sc.seq; rw [h]
theorem seq_threw {x y : Sc} {s' : ScState} {e : RErr} (h : x σ s = (.threw e, s')) : (x ⨟ y) σ s = (.threw e, s') := by unfold Sc.seq; rw [h]
theorem seq_dead {x y : Sc} (h : (x σ s).1 = .terminated) : ((x ⨟ y) σ s).1 = .terminated := by
  unfold Sc.seq
  split
  · next e => rw [e] at h; cases h
  · exact h
theorem unwind_ok {x d : Sc} {s' : ScState} (h : x σ s = (.ok, s')) : x.unwind d σ s = (.ok, s') := by unfold Sc.unwind; rw [h]
theorem unwind_threw {x d : Sc} {s' s2 : ScState} {e : RErr} (h : x σ s = (.threw e, s')) (hd : d σ s' = (.ok, s2)) : x.unwind d σ s = (.threw e, s2) := by
  unfold Sc.unwind; rw [h]; dsimp only; rw [hd]
theorem unwind_dead {x d : Sc} (h : (x σ s).1 = .terminated) : (x.unwind d σ s).1 = .terminated := by
  unfold Sc.unwind
  split
  · next e => rw [e] at h; cases h
  · exact h
theorem unwind_dead2 {x d : Sc} {s' : ScState} {e : RErr} (h : x σ s = (.threw e, s')) (hd : (d σ s').1 ≠ .ok) : (x.unwind d σ s).1 = .terminated := by
  unfold Sc.unwind; rw [h]; dsimp only
  split
  · next e => rw [e] at hd; exact absurd rfl hd
  · rfl
theorem noexcept_ok {x : Sc} {s' : ScState} (h : x σ s = (.ok, s')) : x.noexcept σ s = (.ok, s') := by unfold Sc.noexcept; rw [h]
theorem noexcept_bad {x : Sc} (h : (x σ s).1 ≠ .ok) : (x.noexcept σ s).1 = .terminated := by
  unfold Sc.noexcept
  split
  · rfl
  · next r hr =>
    cases e : (x σ s).1 with
    | ok => exact absurd e h
    | terminated => rfl
    | threw e' => exact absurd (show x σ s = (.threw e', (x σ s).2) by rw [← e]) (by intro c; exact hr _ _ c)
theorem packaged_ok {x : Sc} {s' : ScState} (h : x σ s = (.ok, s')) : x.packaged σ s = (.ok, s') := by unfold Sc.packaged; rw [h]
theorem packaged_threw {x : Sc} {s' : ScState} {e : RErr} (h : x σ s = (.threw e, s')) : x.packaged σ s = (.ok, s') := by unfold Sc.packaged; rw [h]
theorem packaged_dead {x : Sc} (h : (x σ s).1 = .terminated) : (x.packaged σ s).1 = .terminated := by
  unfold Sc.packaged
  split
  · next e => rw [e] at h; cases h
  · exact h

/-- `~Active` of an object with a thread. -/
theorem dtor_started (σ : Supply) (s : ScState) : (σ.ok s.req = true ∧ activeDtor true σ s = (.ok, { s with req := s.req + 1, threads := s.threads - 1 })) ∨
    (σ.ok s.req = false ∧ (activeDtor true σ s).1 = .terminated) := by
  rcases r_mem σ s with ⟨a, b⟩ | ⟨a, b⟩
  · exact Or.inl ⟨a, noexcept_ok (by rw [seq_ok b]; rfl)⟩
  · exact Or.inr ⟨a, noexcept_bad (by rw [seq_threw b]; simp)⟩

/-- ... without one. -/
theorem dtor_unstarted (σ : Supply) (s : ScState) : (activeDtor false σ s).1 = .terminated := by
  rcases r_mem σ s with ⟨a, b⟩ | ⟨a, b⟩
  · exact noexcept_bad (by rw [seq_ok b]; simp [Sc.raise])
  · exact noexcept_bad (by rw [seq_threw b]; simp)

theorem create_active (σ : Supply) (s : ScState) :
    (σ.ok s.req = true ∧ σ.ok (s.req + 1) = true ∧ createActive σ s = (.ok, { s with req := s.req + 2, threads := s.threads + 1 })) ∨
    (σ.ok s.req = false ∧ createActive σ s = (.threw .badAlloc, { s with req := s.req + 1 })) ∨
    (σ.ok s.req = true ∧ σ.ok (s.req + 1) = false ∧ (createActive σ s).1 = .terminated) := by
  rcases r_mem σ s with ⟨a, b⟩ | ⟨a, b⟩
  · unfold createActive
    rw [seq_ok b]
    cases h : σ.ok (s.req + 1)
    · exact Or.inr (Or.inr ⟨a, rfl, unwind_dead2 (by unfold Sc.newThread; simp only [h]; rfl) (by rw [dtor_unstarted]; simp)⟩)
    · exact Or.inl ⟨a, rfl, unwind_ok (by unfold Sc.newThread; simp only [h]; rfl)⟩
  · exact Or.inr (Or.inl ⟨a, by unfold createActive; rw [seq_threw b]⟩)

theorem sink_ctor (σ : Supply) (s : ScState) : ∃ r,
    sinkCtor σ s = (.ok, { s with req := r, threads := s.threads + 1 }) ∨ sinkCtor σ s = (.threw .badAlloc, { s with req := r }) ∨ (sinkCtor σ s).1 = .terminated := by
  unfold sinkCtor
  rcases create_active σ s with ⟨_, _, b⟩ | ⟨_, b⟩ | ⟨_, _, b⟩
  · rw [seq_ok b]
    rcases r_mem σ { s with req := s.req + 2, threads := s.threads + 1 } with ⟨_, d⟩ | ⟨_, d⟩
    · exact ⟨_, Or.inl (unwind_ok d)⟩
    · rcases dtor_started σ { s with req := s.req + 2 + 1, threads := s.threads + 1 } with ⟨_, e⟩ | ⟨_, e⟩
      · exact ⟨_, Or.inr (Or.inl (by rw [unwind_threw d e]; rfl))⟩
      · exact ⟨0, Or.inr (Or.inr (unwind_dead2 d (by rw [e]; simp)))⟩
  · exact ⟨_, Or.inr (Or.inl (seq_threw b))⟩
  · exact ⟨0, Or.inr (Or.inr (seq_dead b))⟩

theorem sink_dtor (σ : Supply) (s : ScState) (i : Nat) : (σ.ok s.req = true ∧
      sinkDtor i σ s = (.ok, { s with req := s.req + 1, threads := s.threads - 1, live := s.live.erase i, gone := s.gone ++ [i] })) ∨
    (σ.ok s.req = false ∧ (sinkDtor i σ s).1 = .terminated) := by
  unfold sinkDtor
  rcases dtor_started σ s with ⟨a, b⟩ | ⟨a, b⟩
  · exact Or.inl ⟨a, by rw [seq_ok b]; rfl⟩
  · exact Or.inr ⟨a, seq_dead b⟩

theorem spawn_task (σ : Supply) (s : ScState) (body : Sc) :
    (σ.ok s.req = true ∧ σ.ok (s.req + 1) = true ∧ spawnTask body σ s = body.packaged σ { s with req := s.req + 2 }) ∨
    ((σ.ok s.req = false ∨ σ.ok (s.req + 1) = false) ∧ ∃ r, spawnTask body σ s = (.threw .badAlloc, { s with req := r })) := by
  unfold spawnTask
  rcases r_mem σ s with ⟨a, b⟩ | ⟨a, b⟩
  · rw [seq_ok b]
    rcases r_mem σ { s with req := s.req + 1 } with ⟨c, d⟩ | ⟨c, d⟩
    · exact Or.inl ⟨a, c, by rw [seq_ok d]⟩
    · exact Or.inr ⟨Or.inr c, _, seq_threw d⟩
  · exact Or.inr ⟨Or.inl a, _, seq_threw b⟩

/-! ### The functions -/

/-- **C103**, `createLogWorker`: it returns, or throws and there is nothing, or ends the process. -/
theorem C103_create (σ : Supply) (s : ScState) : ∃ r,
    createWorker σ s = (.ok, { s with req := r, worker := true, threads := s.threads + 1 }) ∨ createWorker σ s = (.threw .badAlloc, { s with req := r }) ∨
    (createWorker σ s).1 = .terminated := by
  unfold createWorker
  rcases r_mem σ s with ⟨_, b⟩ | ⟨_, b⟩
  · rw [seq_ok b]
    rcases create_active σ { s with req := s.req + 1 } with ⟨_, _, d⟩ | ⟨_, d⟩ | ⟨_, _, d⟩
    · exact ⟨_, Or.inl (by rw [seq_ok d]; rfl)⟩
    · exact ⟨_, Or.inr (Or.inl (seq_threw d))⟩
    · exact ⟨0, Or.inr (Or.inr (seq_dead d))⟩
  · exact ⟨_, Or.inr (Or.inl (seq_threw b))⟩

/-- **C103**, `addSink`: it returns and the sink is attached; or it returns a handle although the sink is not attached and has been destroyed; or it throws and the sink has been destroyed;
or it throws although the sink is attached, and there is no handle to remove it; or the process ends. -/
theorem C103_add (σ : Supply) (s : ScState) (h : NoLeak s) : ∃ r,
    addSinkR σ s = (.ok, { s with req := r, made := s.made + 1, att := s.att ++ [s.made], live := s.live ++ [s.made], handles := s.handles ++ [s.made], threads := s.threads + 1 }) ∨
    addSinkR σ s = (.ok, { s with req := r, made := s.made + 1, handles := s.handles ++ [s.made], gone := s.gone ++ [s.made] }) ∨
    addSinkR σ s = (.threw .badAlloc, { s with req := r, made := s.made + 1, gone := s.gone ++ [s.made] }) ∨
    addSinkR σ s = (.threw .badAlloc, { s with req := r, made := s.made + 1, att := s.att ++ [s.made], live := s.live ++ [s.made], threads := s.threads + 1 }) ∨
    (addSinkR σ s).1 = .terminated := by
  have hfresh : s.made ∉ s.att := by
    intro hm
    have := h.2.2.1.mem_iff.1 (List.mem_append_right _ hm)
    exact absurd (List.mem_range.1 this) (Nat.lt_irrefl _)
  have hlive : (s.live ++ [s.made]).erase s.made = s.live := by
    rw [List.erase_append_right _ (by rw [h.1]; exact hfresh)]; simp
  unfold addSinkR
  dsimp only
  rw [seq_ok (x := Sc.modify _) rfl]
  let s1 : ScState := { s with made := s.made + 1 }
  show ∃ r, ((Sc.unwind (Sc.mem ⨟ sinkCtor) (destroyReal s.made)) ⨟ _) σ s1 = _ ∨ ((Sc.unwind (Sc.mem ⨟ sinkCtor) (destroyReal s.made)) ⨟ _) σ s1 = _ ∨
    ((Sc.unwind (Sc.mem ⨟ sinkCtor) (destroyReal s.made)) ⨟ _) σ s1 = _ ∨ ((Sc.unwind (Sc.mem ⨟ sinkCtor) (destroyReal s.made)) ⨟ _) σ s1 = _ ∨
    (((Sc.unwind (Sc.mem ⨟ sinkCtor) (destroyReal s.made)) ⨟ _) σ s1).1 = _
  -- the local `shared_ptr` when the sink is not attached
  have drop1 : ∀ r, (∃ r', dropSink s.made σ { s1 with req := r, threads := s.threads + 1, live := s.live ++ [s.made] } = (.ok, { s1 with req := r', gone := s.gone ++ [s.made] })) ∨
      (dropSink s.made σ { s1 with req := r, threads := s.threads + 1, live := s.live ++ [s.made] }).1 = .terminated := by
    intro r
    unfold dropSink
    rw [if_neg (show ¬ s.made ∈ s.att from hfresh)]
    rcases sink_dtor σ { s1 with req := r, threads := s.threads + 1, live := s.live ++ [s.made] } s.made with ⟨_, b⟩ | ⟨_, b⟩
    · refine Or.inl ⟨r + 1, ?_⟩
      rw [b]
      simp only [hlive, Nat.add_sub_cancel]
      rfl
    · exact Or.inr b
  have drop1h : ∀ r, (∃ r', dropSink s.made σ { s1 with req := r, threads := s.threads + 1, live := s.live ++ [s.made], handles := s.handles ++ [s.made] } =
        (.ok, { s1 with req := r', gone := s.gone ++ [s.made], handles := s.handles ++ [s.made] })) ∨
      (dropSink s.made σ { s1 with req := r, threads := s.threads + 1, live := s.live ++ [s.made], handles := s.handles ++ [s.made] }).1 = .terminated := by
    intro r
    unfold dropSink
    rw [if_neg (show ¬ s.made ∈ s.att from hfresh)]
    rcases sink_dtor σ { s1 with req := r, threads := s.threads + 1, live := s.live ++ [s.made], handles := s.handles ++ [s.made] } s.made with ⟨_, b⟩ | ⟨_, b⟩
    · refine Or.inl ⟨r + 1, ?_⟩
      rw [b]
      simp only [hlive, Nat.add_sub_cancel]
      rfl
    · exact Or.inr b
  have ctor : ∃ r, (Sc.mem ⨟ sinkCtor) σ s1 = (.ok, { s1 with req := r, threads := s.threads + 1 }) ∨ (Sc.mem ⨟ sinkCtor) σ s1 = (.threw .badAlloc, { s1 with req := r }) ∨
      ((Sc.mem ⨟ sinkCtor) σ s1).1 = .terminated := by
    rcases r_mem σ s1 with ⟨_, b⟩ | ⟨_, b⟩
    · rw [seq_ok b]; exact sink_ctor σ { s1 with req := s1.req + 1 }
    · exact ⟨_, Or.inr (Or.inl (seq_threw b))⟩
  obtain ⟨r, c | c | c⟩ := ctor
  · rw [seq_ok (unwind_ok c), seq_ok (x := Sc.modify _) rfl]
    unfold Sc.scope
    rcases spawn_task σ { s1 with req := r, threads := s.threads + 1, live := s.live ++ [s.made] } (Sc.mem ⨟ Sc.modify fun s' => { s' with att := s'.att ++ [s.made] }) with
      ⟨_, _, e⟩ | ⟨_, r2, e⟩
    · rcases r_mem σ { s1 with req := r + 2, threads := s.threads + 1, live := s.live ++ [s.made] } with ⟨_, f⟩ | ⟨_, f⟩
      · -- attached
        have e2 := e.trans (packaged_ok (by rw [seq_ok f]; rfl))
        rcases r_mem σ { s1 with req := r + 2 + 1, threads := s.threads + 1, live := s.live ++ [s.made], att := s.att ++ [s.made] } with ⟨_, g⟩ | ⟨_, g⟩
        · refine ⟨r + 2 + 1 + 1, Or.inl ?_⟩
          rw [seq_ok (unwind_ok (by rw [seq_ok e2, seq_ok g]; rfl))]
          unfold dropSink
          rw [if_pos (show s.made ∈ s.att ++ [s.made] by simp)]
        · refine ⟨r + 2 + 1 + 1, Or.inr (Or.inr (Or.inr (Or.inl ?_)))⟩
          refine seq_threw (unwind_threw (by rw [seq_ok e2]; exact seq_threw g) ?_)
          unfold dropSink
          rw [if_pos (show s.made ∈ s.att ++ [s.made] by simp)]
      · -- `push_back` has failed
        have e2 := e.trans (packaged_threw (by exact seq_threw f))
        rcases r_mem σ { s1 with req := r + 2 + 1, threads := s.threads + 1, live := s.live ++ [s.made] } with ⟨_, g⟩ | ⟨_, g⟩
        · rcases drop1h (r + 2 + 1 + 1) with ⟨r3, hd⟩ | hd
          · refine ⟨r3, Or.inr (Or.inl ?_)⟩
            rw [seq_ok (unwind_ok (by rw [seq_ok e2, seq_ok g]; rfl))]
            exact hd
          · refine ⟨0, Or.inr (Or.inr (Or.inr (Or.inr ?_)))⟩
            rw [seq_ok (unwind_ok (by rw [seq_ok e2, seq_ok g]; rfl))]
            exact hd
        · rcases drop1 (r + 2 + 1 + 1) with ⟨r3, hd⟩ | hd
          · exact ⟨r3, Or.inr (Or.inr (Or.inl (seq_threw (unwind_threw (by rw [seq_ok e2]; exact seq_threw g) hd))))⟩
          · exact ⟨0, Or.inr (Or.inr (Or.inr (Or.inr (seq_dead (unwind_dead2 (by rw [seq_ok e2]; exact seq_threw g) (by rw [hd]; simp))))))⟩
    · rcases drop1 r2 with ⟨r3, hd⟩ | hd
      · exact ⟨r3, Or.inr (Or.inr (Or.inl (seq_threw (unwind_threw (seq_threw e) hd))))⟩
      · exact ⟨0, Or.inr (Or.inr (Or.inr (Or.inr (seq_dead (unwind_dead2 (seq_threw e) (by rw [hd]; simp))))))⟩
  · exact ⟨r, Or.inr (Or.inr (Or.inl (seq_threw (unwind_threw c rfl))))⟩
  · exact ⟨0, Or.inr (Or.inr (Or.inr (Or.inr (seq_dead (unwind_dead c)))))⟩

/-- **C103**, `removeSink` of a sink that is attached: it returns and the sink is gone; or it throws, the sink stays and there is no handle to it any more; or the process ends. -/
theorem C103_remove (σ : Supply) (s : ScState) (i : Nat) : ∃ r,
    (i ∈ s.att ∧ (s.att.erase i).count i = 0 → removeSinkR i σ s = (.ok, { s with req := r, att := s.att.erase i, live := s.live.erase i, gone := s.gone ++ [i], threads := s.threads - 1, handles := s.handles.erase i }) ∨
                    removeSinkR i σ s = (.threw .badAlloc, { s with req := r, handles := s.handles.erase i }) ∨ (removeSinkR i σ s).1 = .terminated) ∧
    (i ∉ s.att → removeSinkR i σ s = (.ok, { s with req := r, handles := s.handles.erase i }) ∨ removeSinkR i σ s = (.threw .badAlloc, { s with req := r, handles := s.handles.erase i })) := by
  unfold removeSinkR Sc.scope
  rcases spawn_task σ s (fun σ s => if i ∈ s.att then ((Sc.modify fun s => { s with att := s.att.erase i }) ⨟ dropSink i) σ s else (.ok, s)) with ⟨_, _, e⟩ | ⟨_, r, e⟩
  · by_cases hi : i ∈ s.att
    · refine ⟨s.req + 3, fun hc => ?_, fun h => absurd hi h⟩
      have hn : i ∉ s.att.erase i := List.count_eq_zero.1 hc.2
      rcases sink_dtor σ { s with req := s.req + 2, att := s.att.erase i } i with ⟨_, d⟩ | ⟨_, d⟩
      · refine Or.inl ?_
        have e2 := e.trans (packaged_ok (x := fun σ s => if i ∈ s.att then ((Sc.modify fun s => { s with att := s.att.erase i }) ⨟ dropSink i) σ s else (.ok, s)) (by
          simp only [hi, if_true]
          rw [seq_ok (x := Sc.modify _) rfl]
          unfold dropSink
          rw [if_neg (show ¬ i ∈ s.att.erase i from hn)]
          exact d))
        rw [seq_ok (unwind_ok e2)]
        rfl
      · refine Or.inr (Or.inr ?_)
        refine seq_dead (unwind_dead ?_)
        rw [e]
        refine packaged_dead ?_
        simp only [hi, if_true]
        rw [seq_ok (x := Sc.modify _) rfl]
        unfold dropSink
        rw [if_neg (show ¬ i ∈ s.att.erase i from hn)]
        exact d
    · refine ⟨s.req + 2, fun h => absurd h.1 hi, fun _ => Or.inl ?_⟩
      have e2 := e.trans (packaged_ok (x := fun σ s => if i ∈ s.att then ((Sc.modify fun s => { s with att := s.att.erase i }) ⨟ dropSink i) σ s else (.ok, s)) (by
        simp only [hi, if_false]
        rfl))
      rw [seq_ok (unwind_ok e2)]
      rfl
  · refine ⟨r, fun _ => Or.inr (Or.inl ?_), fun _ => Or.inr ?_⟩ <;> exact seq_threw (unwind_threw e rfl)

theorem erase_all : ∀ (l : List Nat), l.foldl (fun a i => a.erase i) l = []
  | [] => rfl
  | i :: l => by simp only [List.foldl_cons, List.erase_cons_head]; exact erase_all l

/-- Destroying the sinks in the vector. -/
theorem clear_sinks (σ : Supply) : ∀ (l : List Nat) (s : ScState), s.att = l → s.live = l → ∃ r,
    clearSinks l σ s = (.ok, { s with req := r, att := [], live := [], gone := s.gone ++ l, threads := s.threads - l.length }) ∨ (clearSinks l σ s).1 = .terminated
  | [], s, h1, h2 => ⟨s.req, Or.inl (by
      show (ROut.ok, s) = _
      obtain ⟨a, b, c, d, e, f, g, h, i⟩ := s
      simp only at h1 h2
      subst h1 h2
      simp)⟩
  | i :: l, s, h1, h2 => by
    unfold clearSinks
    rw [seq_ok (x := Sc.modify _) rfl]
    rcases sink_dtor σ { s with att := l } i with ⟨_, d⟩ | ⟨_, d⟩
    · rw [seq_ok d]
      obtain ⟨r, h | h⟩ := clear_sinks σ l { s with att := l, req := s.req + 1, threads := s.threads - 1, live := s.live.erase i, gone := s.gone ++ [i] } rfl
        (by show s.live.erase i = l; rw [h2]; simp)
      · refine ⟨r, Or.inl ?_⟩
        refine h.trans ?_
        simp only [List.append_assoc, List.singleton_append, List.length_cons, Nat.sub_sub, Nat.add_comm]
      · exact ⟨0, Or.inr h⟩
    · exact ⟨0, Or.inr (seq_dead d)⟩

/-- **C103**, `removeAllSinks`: it returns and there are no sinks any more; or it throws and all are still there; or the process ends. -/
theorem C103_removeAll (σ : Supply) (s : ScState) (h : NoLeak s) : ∃ r,
    removeAllR σ s = (.ok, { s with req := r, att := [], live := [], gone := s.gone ++ s.att, threads := s.threads - s.att.length }) ∨
    removeAllR σ s = (.threw .badAlloc, { s with req := r }) ∨ (removeAllR σ s).1 = .terminated := by
  unfold removeAllR
  rcases spawn_task σ s (fun σ s => clearSinks s.att σ s) with ⟨_, _, e⟩ | ⟨_, r, e⟩
  · rw [e]
    obtain ⟨r, d | d⟩ := clear_sinks σ s.att { s with req := s.req + 2 } rfl h.1
    · exact ⟨r, Or.inl (packaged_ok (x := fun σ s => clearSinks s.att σ s) d)⟩
    · exact ⟨0, Or.inr (Or.inr (packaged_dead (x := fun σ s => clearSinks s.att σ s) d))⟩
  · exact ⟨r, Or.inr (Or.inl e)⟩

/-- **C103**, `~LogWorker`: it returns and there is neither a worker nor a sink nor a thread any more, or the process ends. -/
theorem C103_destroy (σ : Supply) (s : ScState) (h : NoLeak s) : ∃ r,
    destroyWorker σ s = (.ok, { s with req := r, worker := false, att := [], live := [], gone := s.gone ++ s.att, threads := s.threads - s.att.length - 1 }) ∨
    (destroyWorker σ s).1 = .terminated := by
  unfold destroyWorker
  obtain ⟨r, a | a | a⟩ := C103_removeAll σ s h
  · rcases dtor_started σ { s with req := r, att := [], live := [], gone := s.gone ++ s.att, threads := s.threads - s.att.length } with ⟨_, b⟩ | ⟨_, b⟩
    · exact ⟨_, Or.inl (by rw [seq_ok (noexcept_ok (by rw [seq_ok a]; exact b))]; rfl)⟩
    · exact ⟨0, Or.inr (seq_dead (noexcept_bad (by rw [seq_ok a, b]; simp)))⟩
  · exact ⟨0, Or.inr (seq_dead (noexcept_bad (by rw [seq_threw a]; simp)))⟩
  · exact ⟨0, Or.inr (seq_dead (noexcept_bad (by rw [seq_dead a]; simp)))⟩

/-- One sink. -/
theorem send_one (σ : Supply) (s : ScState) (t : Str) (i : Nat) :
    (σ.ok s.req = true ∧ σ.ok (s.req + 1) = true ∧ σ.ok (s.req + 2) = true ∧ sendOne t i σ s = (.ok, { s with req := s.req + 3, got := s.got ++ [(i, t)] })) ∨
    ((σ.ok s.req = false ∨ σ.ok (s.req + 1) = false ∨ σ.ok (s.req + 2) = false) ∧ (sendOne t i σ s).1 ≠ .ok) := by
  unfold sendOne
  rcases r_mem σ s with ⟨a, b⟩ | ⟨a, b⟩
  · rw [seq_ok b]
    rcases r_mem σ { s with req := s.req + 1 } with ⟨c, d⟩ | ⟨c, d⟩
    · rw [seq_ok d]
      rcases r_mem σ { s with req := s.req + 1 + 1 } with ⟨e, f⟩ | ⟨e, f⟩
      · exact Or.inl ⟨a, c, e, noexcept_ok (by rw [seq_ok f]; rfl)⟩
      · refine Or.inr ⟨Or.inr (Or.inr e), ?_⟩
        rw [noexcept_bad (by rw [seq_threw f]; simp)]; simp
    · exact Or.inr ⟨Or.inr (Or.inl c), by rw [seq_threw d]; simp⟩
  · exact Or.inr ⟨Or.inl a, by rw [seq_threw b]; simp⟩

theorem seq_not {x y : Sc} (h : (x σ s).1 ≠ .ok) : ((x ⨟ y) σ s).1 ≠ .ok := by
  unfold Sc.seq
  split
  · next e => rw [e] at h; exact absurd rfl h
  · exact h

/-- All sinks. -/
theorem send_all (σ : Supply) (t : Str) : ∀ (l : List Nat) (s : ScState),
    ((∀ n, s.req ≤ n → n < s.req + 3 * l.length → σ.ok n = true) ∧
      sendAllR t l σ s = (.ok, { s with req := s.req + 3 * l.length, got := s.got ++ l.map fun i => (i, t) })) ∨
    ((∃ n, s.req ≤ n ∧ n < s.req + 3 * l.length ∧ σ.ok n = false) ∧ (sendAllR t l σ s).1 ≠ .ok)
  | [], s => Or.inl ⟨fun n h1 h2 => by simp at h2; omega, by simp [sendAllR, Sc.modify]⟩
  | i :: l, s => by
    unfold sendAllR
    rcases send_one σ s t i with ⟨a, b, c, d⟩ | ⟨a, b⟩
    · rw [seq_ok d]
      rcases send_all σ t l { s with req := s.req + 3, got := s.got ++ [(i, t)] } with ⟨h1, h2⟩ | ⟨⟨n, h1, h2, h3⟩, h4⟩
      · refine Or.inl ⟨?_, ?_⟩
        · intro n n1 n2
          simp only [List.length_cons] at n2
          by_cases e0 : n = s.req; · rw [e0]; exact a
          by_cases e1 : n = s.req + 1; · rw [e1]; exact b
          by_cases e2 : n = s.req + 2; · rw [e2]; exact c
          exact h1 n (by show s.req + 3 ≤ n; omega) (by show n < s.req + 3 + 3 * l.length; omega)
        · rw [h2]
          simp only [List.length_cons, List.map_cons, List.append_assoc, List.singleton_append]
          rw [show s.req + 3 + 3 * l.length = s.req + 3 * (l.length + 1) by omega]
      · refine Or.inr ⟨⟨n, ?_, ?_, h3⟩, h4⟩
        · have : s.req + 3 ≤ n := h1; omega
        · have : n < s.req + 3 + 3 * l.length := h2; simp only [List.length_cons]; omega
    · refine Or.inr ⟨?_, seq_not b⟩
      simp only [List.length_cons]
      rcases a with a | a | a
      · exact ⟨_, Nat.le_refl _, by omega, a⟩
      · exact ⟨_, by omega, by omega, a⟩
      · exact ⟨_, by omega, by omega, a⟩

/-- The requests of the worker thread and the threads of the sinks for one message. -/
def bgRequests (s : ScState) : Nat := if s.att = [] then 1 else 3 * s.att.length

/-- The worker thread. -/
theorem bg_save (σ : Supply) (s : ScState) (t : Str) :
    ((∀ n, s.req ≤ n → n < s.req + bgRequests s → σ.ok n = true) ∧
      (bgSaveR t).noexcept σ s = (.ok, { s with req := s.req + bgRequests s, got := s.got ++ s.att.map fun i => (i, t) })) ∨
    ((∃ n, s.req ≤ n ∧ n < s.req + bgRequests s ∧ σ.ok n = false) ∧ ((bgSaveR t).noexcept σ s).1 = .terminated) := by
  unfold bgRequests
  by_cases h : s.att = []
  · rcases r_mem σ s with ⟨a, b⟩ | ⟨a, b⟩
    · refine Or.inl ⟨fun n h1 h2 => ?_, noexcept_ok ?_⟩
      · rw [if_pos h] at h2; rw [show n = s.req by omega]; exact a
      · unfold bgSaveR; rw [if_pos h, b]; simp [h]
    · refine Or.inr ⟨⟨s.req, Nat.le_refl _, by rw [if_pos h]; omega, a⟩, noexcept_bad ?_⟩
      unfold bgSaveR; rw [if_pos h, b]; simp
  · rw [if_neg h]
    rcases send_all σ t s.att s with ⟨a, b⟩ | ⟨a, b⟩
    · refine Or.inl ⟨a, noexcept_ok ?_⟩
      unfold bgSaveR; rw [if_neg h]; exact b
    · refine Or.inr ⟨a, noexcept_bad ?_⟩
      unfold bgSaveR; rw [if_neg h]; exact b

/-- The end of LOG. -/
theorem save_cases (σ : Supply) (s : ScState) (t : Str) :
    ((∀ n, s.req ≤ n → n < s.req + 2 + bgRequests s → σ.ok n = true) ∧
      saveR t σ s = (.ok, { s with req := s.req + 2 + bgRequests s, got := s.got ++ s.att.map fun i => (i, t) })) ∨
    ((σ.ok s.req = false ∨ σ.ok (s.req + 1) = false) ∧ ∃ r, saveR t σ s = (.threw .badAlloc, { s with req := r })) ∨
    ((∃ n, s.req + 2 ≤ n ∧ n < s.req + 2 + bgRequests s ∧ σ.ok n = false) ∧ σ.ok s.req = true ∧ σ.ok (s.req + 1) = true ∧ (saveR t σ s).1 = .terminated) := by
  unfold saveR
  rcases r_mem σ s with ⟨a, b⟩ | ⟨a, b⟩
  · rw [seq_ok b]
    rcases r_mem σ { s with req := s.req + 1 } with ⟨c, d⟩ | ⟨c, d⟩
    · rw [seq_ok d]
      rcases bg_save σ { s with req := s.req + 1 + 1 } t with ⟨e, f⟩ | ⟨⟨n, e1, e2, e3⟩, f⟩
      · refine Or.inl ⟨fun n h1 h2 => ?_, f⟩
        by_cases e0 : n = s.req; · rw [e0]; exact a
        by_cases e1 : n = s.req + 1; · rw [e1]; exact c
        exact e n (by show s.req + 2 ≤ n; omega) h2
      · exact Or.inr (Or.inr ⟨⟨n, e1, e2, e3⟩, a, c, f⟩)
    · exact Or.inr (Or.inl ⟨Or.inr c, _, seq_threw d⟩)
  · exact Or.inr (Or.inl ⟨Or.inl a, _, seq_threw b⟩)

/-- **C103**, LOG: it returns, or the exception of its argument goes on, and each attached sink has received one text, which is the whole text unless memory for it was missing, and then a beginning of it;
or it throws and no sink has received anything; or the process ends. -/
theorem C103_log (σ : Supply) (s : ScState) (t : Str) (b : Bool) : ∃ r,
    (∃ t', t' <+: t ∧ (σ.ok (s.req + 1) = true → t' = t) ∧
      logR t b σ s = (if b then .threw .user else .ok, { s with req := r, got := s.got ++ s.att.map fun i => (i, t') })) ∨
    logR t b σ s = (.threw .badAlloc, { s with req := r }) ∨ (logR t b σ s).1 = .terminated := by
  unfold logR
  rcases r_mem σ s with ⟨_, e⟩ | ⟨_, e⟩
  · rw [seq_ok e]
    dsimp only
    have hp : inserted σ { s with req := s.req + 1 } t <+: t := by
      unfold inserted
      split
      · exact List.prefix_refl _
      · exact List.take_prefix _ _
    have hw : σ.ok (s.req + 1) = true → inserted σ { s with req := s.req + 1 } t = t := by
      intro h; unfold inserted; rw [show ({ s with req := s.req + 1 } : ScState).req = s.req + 1 from rfl, h]; rfl
    cases b with
    | false =>
      rw [if_neg (by simp)]
      rcases save_cases σ { s with req := s.req + 1 + 1 } (inserted σ { s with req := s.req + 1 } t) with ⟨_, f⟩ | ⟨_, r, f⟩ | ⟨_, _, _, f⟩
      · exact ⟨_, Or.inl ⟨_, hp, hw, f⟩⟩
      · exact ⟨r, Or.inr (Or.inl f)⟩
      · exact ⟨0, Or.inr (Or.inr f)⟩
    | true =>
      rw [if_pos rfl]
      rcases save_cases σ { s with req := s.req + 1 + 1 } (inserted σ { s with req := s.req + 1 } t) with ⟨_, f⟩ | ⟨_, r, f⟩ | ⟨_, _, _, f⟩
      · exact ⟨_, Or.inl ⟨_, hp, hw, unwind_threw rfl f⟩⟩
      · exact ⟨0, Or.inr (Or.inr (unwind_dead2 rfl (by rw [f]; simp)))⟩
      · exact ⟨0, Or.inr (Or.inr (unwind_dead2 rfl (by rw [f]; simp)))⟩
  · exact ⟨_, Or.inr (Or.inl (seq_threw e))⟩

/-! ### Nothing leaks -/

theorem noleak_start : NoLeak ScState.start := ⟨rfl, rfl, List.Perm.refl _, fun _ => rfl⟩

theorem noleak_nodup (h : NoLeak s) : s.att.Nodup :=
  (List.nodup_append.1 (h.2.2.1.nodup_iff.2 List.nodup_range)).2.1

theorem noleak_req (h : NoLeak s) (r : Nat) : NoLeak { s with req := r } := h

/-- Each call. -/
theorem noleak_exec (σ : Supply) (s : ScState) (o : ROp) (h : NoLeak s) (ha : o.allowed s = true) (ht : (o.exec σ s).1 ≠ .terminated) : NoLeak (o.exec σ s).2 := by
  obtain ⟨h1, h2, h3, h4⟩ := id h
  have fresh : ∀ l : List Nat, (s.gone ++ s.att).Perm l → (s.gone ++ [s.made] ++ s.att).Perm (l ++ [s.made]) := by
    intro l hl
    refine List.Perm.trans ?_ (List.Perm.append_right _ hl)
    rw [List.append_assoc, List.append_assoc]
    exact List.Perm.append_left _ (List.perm_append_comm)
  cases o with
  | create =>
    have hw : s.worker = false := by simpa [ROp.allowed] using ha
    obtain ⟨r, e | e | e⟩ := C103_create σ s
    · show NoLeak (createWorker σ s).2
      rw [e]
      refine ⟨h1, ?_, h3, fun c => by cases c⟩
      show s.threads + 1 = _
      rw [h2, hw, h4 hw]; rfl
    · show NoLeak (createWorker σ s).2
      rw [e]; exact h
    · exact absurd e ht
  | add =>
    have hw : s.worker = true := by simpa [ROp.allowed] using ha
    have hp : (s.gone ++ (s.att ++ [s.made])).Perm (List.range (s.made + 1)) := by
      rw [← List.append_assoc, List.range_succ]; exact List.Perm.append_right _ h3
    have hg : (s.gone ++ [s.made] ++ s.att).Perm (List.range (s.made + 1)) := by
      rw [List.range_succ]; exact fresh _ h3
    show NoLeak (addSinkR σ s).2
    obtain ⟨r, e | e | e | e | e⟩ := C103_add σ s h
    · rw [e]
      refine ⟨by show s.live ++ _ = s.att ++ _; rw [h1], ?_, hp, fun c => by rw [show s.worker = false from c] at hw; cases hw⟩
      show s.threads + 1 = _ + (s.att ++ [s.made]).length
      rw [h2]; simp only [List.length_append, List.length_cons, List.length_nil]; omega
    · rw [e]; exact ⟨h1, h2, hg, h4⟩
    · rw [e]; exact ⟨h1, h2, hg, h4⟩
    · rw [e]
      refine ⟨by show s.live ++ _ = s.att ++ _; rw [h1], ?_, hp, fun c => by rw [show s.worker = false from c] at hw; cases hw⟩
      show s.threads + 1 = _ + (s.att ++ [s.made]).length
      rw [h2]; simp only [List.length_append, List.length_cons, List.length_nil]; omega
    · exact absurd e ht
  | remove i =>
    show NoLeak (removeSinkR i σ s).2
    obtain ⟨r, ha, hb⟩ := C103_remove σ s i
    by_cases hi : i ∈ s.att
    · rcases ha ⟨hi, List.count_eq_zero.2 fun c => ((noleak_nodup h).mem_erase_iff.1 c).1 rfl⟩ with e | e | e
      · rw [e]
        refine ⟨by show s.live.erase i = s.att.erase i; rw [h1], ?_, ?_, fun c => by show s.att.erase i = []; rw [h4 c]; rfl⟩
        · show s.threads - 1 = _ + (s.att.erase i).length
          have := List.length_pos_of_mem hi
          rw [h2, List.length_erase_of_mem hi]; dsimp only; omega
        · refine List.Perm.trans ?_ h3
          show (s.gone ++ [i] ++ s.att.erase i).Perm _
          rw [List.append_assoc]
          exact List.Perm.append_left _ (List.perm_cons_erase hi).symm
      · rw [e]; exact h
      · exact absurd e ht
    · rcases hb hi with e | e <;> rw [e] <;> exact h
  | removeAll =>
    show NoLeak (removeAllR σ s).2
    obtain ⟨r, e | e | e⟩ := C103_removeAll σ s h
    · rw [e]
      refine ⟨rfl, ?_, by show (s.gone ++ s.att ++ []).Perm _; rw [List.append_nil]; exact h3, fun _ => rfl⟩
      show s.threads - s.att.length = _ + 0
      rw [h2]; dsimp only; omega
    · rw [e]; exact h
    · exact absurd e ht
  | destroy =>
    have hw : s.worker = true := by simpa [ROp.allowed] using ha
    show NoLeak (destroyWorker σ s).2
    obtain ⟨r, e | e⟩ := C103_destroy σ s h
    · rw [e]
      refine ⟨rfl, ?_, by show (s.gone ++ s.att ++ []).Perm _; rw [List.append_nil]; exact h3, fun _ => rfl⟩
      show s.threads - s.att.length - 1 = 0 + 0
      rw [h2, hw]; simp
    · exact absurd e ht
  | log t b =>
    show NoLeak (logR t b σ s).2
    obtain ⟨r, ⟨t', _, _, e⟩ | e | e⟩ := C103_log σ s t b
    · rw [e]; exact h
    · rw [e]; exact h
    · exact absurd e ht

/-- **C103**, no leaks: whatever fails, as long as the process lives, each sink given to `addSink` is attached or has been destroyed, once; the library has a thread for the worker and
one for each attached sink, and after `~LogWorker` none. -/
theorem C103_no_leak (σ : Supply) : ∀ (ops : List ROp) (s : ScState), NoLeak s → .terminated ∉ (scRun σ s ops).1 → NoLeak (scRun σ s ops).2
  | [], _, h, _ => h
  | o :: ops, s, h, ht => by
    unfold scRun at ht ⊢
    cases ha : o.allowed s
    · simp only [ha, Bool.false_eq_true, if_false] at ht ⊢
      exact C103_no_leak σ ops s h ht
    · simp only [ha, if_true] at ht ⊢
      have hx := noleak_exec σ s o h ha
      revert ht hx
      cases o.exec σ s with
      | mk r s' =>
        cases r with
        | terminated => intro ht _; exact absurd (List.mem_singleton.2 rfl) ht
        | ok => intro ht hx; exact C103_no_leak σ ops s' (hx (by simp)) fun c => ht (List.mem_cons_of_mem _ c)
        | threw e => intro ht hx; exact C103_no_leak σ ops s' (hx (by simp)) fun c => ht (List.mem_cons_of_mem _ c)

/-! ### One request fails -/

theorem only_at {j : Nat} (h : OnlyFails σ j) (n : Nat) (hn : n ≠ j) : σ.ok n = true := by rw [h n]; simp [hn]
theorem only_no {j : Nat} (h : OnlyFails σ j) : σ.ok j = false := by rw [h j]; simp

/-- `createLogWorker` makes three requests. -/
theorem create_all (σ : Supply) (s : ScState) (h : ∀ k, k < 3 → σ.ok (s.req + k) = true) :
    createWorker σ s = (.ok, { s with req := s.req + 3, worker := true, threads := s.threads + 1 }) := by
  have e0 := h 0 (by omega); have e1 := h 1 (by omega); have e2 := h 2 (by omega)
  simp only [Nat.add_zero] at e0
  simp [createWorker, createActive, Sc.seq, Sc.mem, Sc.newThread, Sc.unwind, Sc.modify, Nat.add_assoc, e0, e1, e2]

/-- **C103**, one failing request in `createLogWorker`: without memory it throws and there is nothing; if the thread cannot be started the process ends. -/
theorem C103_create_one (s : ScState) (k : Nat) (h : OnlyFails σ (s.req + k)) :
    (k < 2 → createWorker σ s = (.threw .badAlloc, { s with req := s.req + k + 1 })) ∧
    (k = 2 → (createWorker σ s).1 = .terminated) ∧
    (2 < k → createWorker σ s = (.ok, { s with req := s.req + 3, worker := true, threads := s.threads + 1 })) := by
  refine ⟨?_, ?_, fun hk => create_all σ s fun n hn => only_at h _ (by omega)⟩
  · intro hk
    have hk : k = 0 ∨ k = 1 := by omega
    have e := only_no h
    rcases hk with rfl | rfl
    · simp only [Nat.add_zero] at e
      simp [createWorker, Sc.seq, Sc.mem, e]
    · have e0 := only_at h s.req (by omega)
      simp [createWorker, createActive, Sc.seq, Sc.mem, e0, e]
  · rintro rfl
    have e0 := only_at h s.req (by omega)
    have e1 := only_at h (s.req + 1) (by omega)
    have e2 := only_no h
    have e3 := only_at h (s.req + 3) (by omega)
    simp [createWorker, createActive, activeDtor, Sc.seq, Sc.mem, Sc.newThread, Sc.unwind, Sc.raise, Sc.noexcept, Nat.add_assoc, e0, e1, e2, e3]

/-- `addSink` makes eight requests. -/
theorem add_all (σ : Supply) (s : ScState) (h : ∀ k, k < 8 → σ.ok (s.req + k) = true) : addSinkR σ s =
    (.ok, { s with req := s.req + 8, made := s.made + 1, att := s.att ++ [s.made], live := s.live ++ [s.made], handles := s.handles ++ [s.made], threads := s.threads + 1 }) := by
  have e0 := h 0 (by omega); have e1 := h 1 (by omega); have e2 := h 2 (by omega); have e3 := h 3 (by omega)
  have e4 := h 4 (by omega); have e5 := h 5 (by omega); have e6 := h 6 (by omega); have e7 := h 7 (by omega)
  simp only [Nat.add_zero] at e0
  simp [addSinkR, sinkCtor, createActive, spawnTask, dropSink, Sc.scope, Sc.packaged, Sc.seq, Sc.mem, Sc.newThread, Sc.unwind, Sc.modify, Nat.add_assoc, e0, e1, e2, e3, e4, e5, e6, e7]

/-- **C103**, one failing request in `addSink`. Memory for the sink or for the message to the worker: it throws and the sink has been destroyed. The thread of the sink: the process ends. Memory for the vector of sinks:
it returns a handle, the sink is not there. Memory for the handle: it throws, the sink is there. -/
theorem C103_add_one (s : ScState) (k : Nat) (hs : NoLeak s) (h : OnlyFails σ (s.req + k)) : ∃ r,
    (k < 2 ∨ k = 3 ∨ k = 4 ∨ k = 5 → addSinkR σ s = (.threw .badAlloc, { s with req := r, made := s.made + 1, gone := s.gone ++ [s.made] })) ∧
    (k = 2 → (addSinkR σ s).1 = .terminated) ∧
    (k = 6 → addSinkR σ s = (.ok, { s with req := r, made := s.made + 1, handles := s.handles ++ [s.made], gone := s.gone ++ [s.made] })) ∧
    (k = 7 → addSinkR σ s = (.threw .badAlloc, { s with req := r, made := s.made + 1, att := s.att ++ [s.made], live := s.live ++ [s.made], threads := s.threads + 1 })) ∧
    (7 < k → addSinkR σ s = (.ok, { s with req := r, made := s.made + 1, att := s.att ++ [s.made], live := s.live ++ [s.made], handles := s.handles ++ [s.made], threads := s.threads + 1 })) := by
  have hfresh : s.made ∉ s.att := by
    intro hm
    have := hs.2.2.1.mem_iff.1 (List.mem_append_right _ hm)
    exact absurd (List.mem_range.1 this) (Nat.lt_irrefl _)
  have hlive : (s.live ++ [s.made]).erase s.made = s.live := by
    rw [List.erase_append_right _ (by rw [hs.1]; exact hfresh)]; simp
  have e := only_no h
  have hk : k = 0 ∨ k = 1 ∨ k = 2 ∨ k = 3 ∨ k = 4 ∨ k = 5 ∨ k = 6 ∨ k = 7 ∨ 7 < k := by omega
  rcases hk with rfl | rfl | rfl | rfl | rfl | rfl | rfl | rfl | hk
  · simp only [Nat.add_zero] at e
    refine ⟨s.req + 1, fun _ => ?_, fun c => by omega, fun c => by omega, fun c => by omega, fun c => by omega⟩
    simp [addSinkR, destroyReal, Sc.seq, Sc.mem, Sc.unwind, Sc.modify, e]
  · have e0 := only_at h s.req (by omega)
    refine ⟨s.req + 2, fun _ => ?_, fun c => by omega, fun c => by omega, fun c => by omega, fun c => by omega⟩
    simp [addSinkR, sinkCtor, createActive, destroyReal, Sc.seq, Sc.mem, Sc.unwind, Sc.modify, e0, e]
  · have e0 := only_at h s.req (by omega)
    have e1 := only_at h (s.req + 1) (by omega)
    have e3 := only_at h (s.req + 3) (by omega)
    refine ⟨0, fun c => by omega, fun _ => ?_, fun c => by omega, fun c => by omega, fun c => by omega⟩
    simp [addSinkR, sinkCtor, createActive, activeDtor, Sc.raise, Sc.noexcept, Sc.seq, Sc.mem, Sc.newThread, Sc.unwind, Sc.modify, Nat.add_assoc, e0, e1, e, e3]
  · have e0 := only_at h s.req (by omega)
    have e1 := only_at h (s.req + 1) (by omega)
    have e2 := only_at h (s.req + 2) (by omega)
    have e4 := only_at h (s.req + 4) (by omega)
    refine ⟨s.req + 5, fun c => ?_, fun c => by omega, fun c => by omega, fun c => by omega, fun c => by omega⟩
    simp [addSinkR, sinkCtor, createActive, activeDtor, destroyReal, Sc.noexcept, Sc.seq, Sc.mem, Sc.newThread, Sc.unwind, Sc.modify, Nat.add_assoc, e0, e1, e2, e, e4]
  · have e0 := only_at h s.req (by omega)
    have e1 := only_at h (s.req + 1) (by omega)
    have e2 := only_at h (s.req + 2) (by omega)
    have e3 := only_at h (s.req + 3) (by omega)
    have e5 := only_at h (s.req + 5) (by omega)
    refine ⟨s.req + 6, fun c => ?_, fun c => by omega, fun c => by omega, fun c => by omega, fun c => by omega⟩
    simp [addSinkR, sinkCtor, createActive, spawnTask, dropSink, sinkDtor, activeDtor, Sc.scope, Sc.noexcept, Sc.seq, Sc.mem, Sc.newThread, Sc.unwind, Sc.modify, Nat.add_assoc, e0, e1, e2, e3, e, e5,
      hfresh, hlive]
  · have e0 := only_at h s.req (by omega)
    have e1 := only_at h (s.req + 1) (by omega)
    have e2 := only_at h (s.req + 2) (by omega)
    have e3 := only_at h (s.req + 3) (by omega)
    have e4 := only_at h (s.req + 4) (by omega)
    have e6 := only_at h (s.req + 6) (by omega)
    refine ⟨s.req + 7, fun c => ?_, fun c => by omega, fun c => by omega, fun c => by omega, fun c => by omega⟩
    simp [addSinkR, sinkCtor, createActive, spawnTask, dropSink, sinkDtor, activeDtor, Sc.scope, Sc.noexcept, Sc.seq, Sc.mem, Sc.newThread, Sc.unwind, Sc.modify, Nat.add_assoc, e0, e1, e2, e3, e4, e, e6,
      hfresh, hlive]
  · have e0 := only_at h s.req (by omega)
    have e1 := only_at h (s.req + 1) (by omega)
    have e2 := only_at h (s.req + 2) (by omega)
    have e3 := only_at h (s.req + 3) (by omega)
    have e4 := only_at h (s.req + 4) (by omega)
    have e5 := only_at h (s.req + 5) (by omega)
    have e7 := only_at h (s.req + 7) (by omega)
    have e8 := only_at h (s.req + 8) (by omega)
    refine ⟨s.req + 9, fun c => by omega, fun c => by omega, fun _ => ?_, fun c => by omega, fun c => by omega⟩
    simp [addSinkR, sinkCtor, createActive, spawnTask, dropSink, sinkDtor, activeDtor, Sc.scope, Sc.packaged, Sc.noexcept, Sc.seq, Sc.mem, Sc.newThread, Sc.unwind, Sc.modify, Nat.add_assoc,
      e0, e1, e2, e3, e4, e5, e, e7, e8, hfresh, hlive]
  · have e0 := only_at h s.req (by omega)
    have e1 := only_at h (s.req + 1) (by omega)
    have e2 := only_at h (s.req + 2) (by omega)
    have e3 := only_at h (s.req + 3) (by omega)
    have e4 := only_at h (s.req + 4) (by omega)
    have e5 := only_at h (s.req + 5) (by omega)
    have e6 := only_at h (s.req + 6) (by omega)
    refine ⟨s.req + 8, fun c => by omega, fun c => by omega, fun c => by omega, fun _ => ?_, fun c => by omega⟩
    simp [addSinkR, sinkCtor, createActive, spawnTask, dropSink, Sc.scope, Sc.packaged, Sc.seq, Sc.mem, Sc.newThread, Sc.unwind, Sc.modify, Nat.add_assoc, e0, e1, e2, e3, e4, e5, e6, e]
  · exact ⟨s.req + 8, fun c => by omega, fun c => by omega, fun c => by omega, fun c => by omega, fun _ => add_all σ s fun n hn => only_at h _ (by omega)⟩

/-- `removeSink` makes three requests, or two. -/
theorem remove_all (σ : Supply) (s : ScState) (i : Nat) (hs : NoLeak s) (h : ∀ k, k < 3 → σ.ok (s.req + k) = true) :
    removeSinkR i σ s = (.ok, if i ∈ s.att then
        { s with req := s.req + 3, att := s.att.erase i, live := s.live.erase i, gone := s.gone ++ [i], threads := s.threads - 1, handles := s.handles.erase i }
      else { s with req := s.req + 2, handles := s.handles.erase i }) := by
  have e0 := h 0 (by omega); have e1 := h 1 (by omega); have e2 := h 2 (by omega)
  simp only [Nat.add_zero] at e0
  by_cases hi : i ∈ s.att
  · have hn : i ∉ s.att.erase i := fun c => ((noleak_nodup hs).mem_erase_iff.1 c).1 rfl
    simp [removeSinkR, spawnTask, dropSink, sinkDtor, activeDtor, Sc.scope, Sc.packaged, Sc.noexcept, Sc.seq, Sc.mem, Sc.unwind, Sc.modify, Nat.add_assoc, e0, e1, e2, hi, hn]
  · simp [removeSinkR, spawnTask, Sc.scope, Sc.packaged, Sc.seq, Sc.mem, Sc.unwind, Sc.modify, e0, e1, hi]

/-- **C103**, one failing request in `removeSink`: the message to the worker: it throws, the sink stays, the handle is lost. The message that stops the thread of the sink: the process ends. -/
theorem C103_remove_one (s : ScState) (i k : Nat) (hs : NoLeak s) (h : OnlyFails σ (s.req + k)) :
    (k < 2 → removeSinkR i σ s = (.threw .badAlloc, { s with req := s.req + k + 1, handles := s.handles.erase i })) ∧
    (k = 2 → if i ∈ s.att then (removeSinkR i σ s).1 = .terminated else removeSinkR i σ s = (.ok, { s with req := s.req + 2, handles := s.handles.erase i })) := by
  have e := only_no h
  refine ⟨?_, ?_⟩
  · intro hk
    have hk : k = 0 ∨ k = 1 := by omega
    rcases hk with rfl | rfl
    · simp only [Nat.add_zero] at e
      simp [removeSinkR, spawnTask, Sc.scope, Sc.seq, Sc.mem, Sc.unwind, Sc.modify, e]
    · have e0 := only_at h s.req (by omega)
      simp [removeSinkR, spawnTask, Sc.scope, Sc.seq, Sc.mem, Sc.unwind, Sc.modify, e0, e]
  · rintro rfl
    have e0 := only_at h s.req (by omega)
    have e1 := only_at h (s.req + 1) (by omega)
    by_cases hi : i ∈ s.att
    · have hn : i ∉ s.att.erase i := fun c => ((noleak_nodup hs).mem_erase_iff.1 c).1 rfl
      simp [removeSinkR, spawnTask, dropSink, sinkDtor, activeDtor, Sc.scope, Sc.packaged, Sc.noexcept, Sc.seq, Sc.mem, Sc.unwind, Sc.modify, Nat.add_assoc, e0, e1, e, hi, hn]
    · simp [removeSinkR, spawnTask, Sc.scope, Sc.packaged, Sc.seq, Sc.mem, Sc.unwind, Sc.modify, e0, e1, hi]

/-- Destroying the sinks: a request each. -/
theorem clear_all (σ : Supply) : ∀ (l : List Nat) (s : ScState), s.att = l → s.live = l → (∀ k, k < l.length → σ.ok (s.req + k) = true) →
    clearSinks l σ s = (.ok, { s with req := s.req + l.length, att := [], live := [], gone := s.gone ++ l, threads := s.threads - l.length })
  | [], s, h1, h2, _ => by
      show (ROut.ok, s) = _
      obtain ⟨a, b, c, d, e, f, g, h, i⟩ := s
      simp only at h1 h2
      subst h1 h2
      simp
  | i :: l, s, h1, h2, h => by
    unfold clearSinks
    rw [seq_ok (x := Sc.modify _) rfl]
    rcases sink_dtor σ { s with att := l } i with ⟨_, d⟩ | ⟨c, _⟩
    · rw [seq_ok d]
      refine (clear_all σ l { s with att := l, req := s.req + 1, threads := s.threads - 1, live := s.live.erase i, gone := s.gone ++ [i] } rfl
        (by show s.live.erase i = l; rw [h2]; simp) ?_).trans ?_
      · intro k hk
        have := h (k + 1) (by simp only [List.length_cons]; omega)
        rw [show s.req + (k + 1) = s.req + 1 + k by omega] at this
        exact this
      · simp only [List.append_assoc, List.singleton_append, List.length_cons, Nat.sub_sub, Nat.add_comm, Nat.add_left_comm]
    · have := h 0 (by simp)
      rw [show ({ s with att := l } : ScState).req = s.req + 0 from rfl, this] at c
      cases c

/-- ... and if one of them fails, the process ends. -/
theorem clear_dead (σ : Supply) : ∀ (l : List Nat) (s : ScState), (∃ k, k < l.length ∧ σ.ok (s.req + k) = false) → (clearSinks l σ s).1 = .terminated
  | [], _, ⟨_, h, _⟩ => by simp at h
  | i :: l, s, ⟨k, h, e⟩ => by
    unfold clearSinks
    rw [seq_ok (x := Sc.modify _) rfl]
    rcases sink_dtor σ { s with att := l } i with ⟨c, d⟩ | ⟨_, d⟩
    · rw [seq_ok d]
      cases k with
      | zero => rw [show ({ s with att := l } : ScState).req = s.req + 0 from rfl, e] at c; cases c
      | succ k =>
        refine clear_dead σ l _ ⟨k, by simp only [List.length_cons] at h; omega, ?_⟩
        show σ.ok (s.req + 1 + k) = false
        rw [show s.req + 1 + k = s.req + (k + 1) by omega]; exact e
    · exact seq_dead d

/-- `removeAllSinks` makes two requests and one for each sink. -/
theorem removeAll_all (σ : Supply) (s : ScState) (hs : NoLeak s) (h : ∀ k, k < 2 + s.att.length → σ.ok (s.req + k) = true) :
    removeAllR σ s = (.ok, { s with req := s.req + 2 + s.att.length, att := [], live := [], gone := s.gone ++ s.att, threads := s.threads - s.att.length }) := by
  unfold removeAllR
  rcases spawn_task σ s (fun σ s => clearSinks s.att σ s) with ⟨_, _, e⟩ | ⟨c, _⟩
  · rw [e]
    refine packaged_ok (x := fun σ s => clearSinks s.att σ s) (clear_all σ s.att { s with req := s.req + 2 } rfl hs.1 fun k hk => ?_)
    have := h (2 + k) (by omega)
    rw [← Nat.add_assoc] at this; exact this
  · have h0 := h 0 (by omega)
    have h1 := h 1 (by omega)
    rw [Nat.add_zero] at h0
    rw [h0, h1] at c
    simp at c

/-- **C103**, one failing request in `removeAllSinks`: the message to the worker: it throws, all sinks stay. The message that stops the thread of a sink: the process ends. -/
theorem C103_removeAll_one (s : ScState) (k : Nat) (h : OnlyFails σ (s.req + k)) :
    (k < 2 → removeAllR σ s = (.threw .badAlloc, { s with req := s.req + k + 1 })) ∧
    (2 ≤ k → k < 2 + s.att.length → (removeAllR σ s).1 = .terminated) := by
  have e := only_no h
  refine ⟨?_, ?_⟩
  · intro hk
    have hk : k = 0 ∨ k = 1 := by omega
    rcases hk with rfl | rfl
    · simp only [Nat.add_zero] at e
      simp [removeAllR, spawnTask, Sc.seq, Sc.mem, e]
    · have e0 := only_at h s.req (by omega)
      simp [removeAllR, spawnTask, Sc.seq, Sc.mem, e0, e]
  · intro h2 hk
    unfold removeAllR
    rcases spawn_task σ s (fun σ s => clearSinks s.att σ s) with ⟨_, _, f⟩ | ⟨c, _⟩
    · rw [f]
      refine packaged_dead (x := fun σ s => clearSinks s.att σ s) (clear_dead σ s.att { s with req := s.req + 2 } ⟨k - 2, by omega, ?_⟩)
      show σ.ok (s.req + 2 + (k - 2)) = false
      rw [show s.req + 2 + (k - 2) = s.req + k by omega]; exact e
    · rw [only_at h s.req (by omega), only_at h (s.req + 1) (by omega)] at c
      simp at c

/-- `~LogWorker` makes one request more. -/
theorem destroy_all (σ : Supply) (s : ScState) (hs : NoLeak s) (h : ∀ k, k < 3 + s.att.length → σ.ok (s.req + k) = true) :
    destroyWorker σ s = (.ok, { s with req := s.req + 3 + s.att.length, worker := false, att := [], live := [], gone := s.gone ++ s.att, threads := s.threads - s.att.length - 1 }) := by
  unfold destroyWorker
  have a := removeAll_all σ s hs fun k hk => h k (by omega)
  rcases dtor_started σ { s with req := s.req + 2 + s.att.length, att := [], live := [], gone := s.gone ++ s.att, threads := s.threads - s.att.length } with ⟨_, b⟩ | ⟨c, _⟩
  · rw [seq_ok (noexcept_ok (by rw [seq_ok a]; exact b))]
    rw [show s.req + 3 + s.att.length = s.req + 2 + s.att.length + 1 by omega]
    rfl
  · have := h (2 + s.att.length) (by omega)
    rw [← Nat.add_assoc] at this
    rw [show ({ s with req := s.req + 2 + s.att.length, att := [], live := [], gone := s.gone ++ s.att, threads := s.threads - s.att.length } : ScState).req = s.req + 2 + s.att.length from rfl, this] at c
    cases c

/-- **C103**, one failing request in `~LogWorker`: the process ends. -/
theorem C103_destroy_one (s : ScState) (k : Nat) (hs : NoLeak s) (h : OnlyFails σ (s.req + k)) (hk : k < 3 + s.att.length) : (destroyWorker σ s).1 = .terminated := by
  unfold destroyWorker
  refine seq_dead (noexcept_bad ?_)
  by_cases h2 : k < 2
  · rw [seq_threw ((C103_removeAll_one s k h).1 h2)]; simp
  · by_cases h3 : k < 2 + s.att.length
    · rw [seq_dead ((C103_removeAll_one s k h).2 (by omega) h3)]; simp
    · rw [seq_ok (removeAll_all σ s hs fun n hn => only_at h _ (by omega))]
      rcases dtor_started σ { s with req := s.req + 2 + s.att.length, att := [], live := [], gone := s.gone ++ s.att, threads := s.threads - s.att.length } with ⟨c, _⟩ | ⟨_, b⟩
      · have e := only_no h
        rw [show s.req + k = s.req + 2 + s.att.length by omega] at e
        exact absurd (e.symm.trans c) (by simp)
      · rw [b]; simp

/-- **C103**, one failing request in LOG: the message itself (0) or its place in the queue (2, 3): it throws and nothing is received, but if an argument has thrown already the process ends. Memory for the text (1): a
beginning of the text is received, and the caller does not notice. Anything that the worker or a sink needs: the process ends. -/
theorem C103_log_one (s : ScState) (t : Str) (b : Bool) (k : Nat) (h : OnlyFails σ (s.req + k)) :
    (k = 0 → logR t b σ s = (.threw .badAlloc, { s with req := s.req + 1 })) ∧
    (k = 1 → logR t b σ s = (if b then .threw .user else .ok, { s with req := s.req + 4 + bgRequests s, got := s.got ++ s.att.map fun i => (i, t.take (σ.cut (s.req + 1))) })) ∧
    (k = 2 ∨ k = 3 → if b then (logR t b σ s).1 = .terminated else logR t b σ s = (.threw .badAlloc, { s with req := s.req + k + 1 })) ∧
    (4 ≤ k → k < 4 + bgRequests s → (logR t b σ s).1 = .terminated) ∧
    (4 + bgRequests s ≤ k → logR t b σ s = (if b then .threw .user else .ok, { s with req := s.req + 4 + bgRequests s, got := s.got ++ s.att.map fun i => (i, t) })) := by
  have e := only_no h
  have hbg : ∀ r, bgRequests { s with req := r } = bgRequests s := fun _ => rfl
  have hb : 0 < bgRequests s := by
    unfold bgRequests
    split
    · omega
    · next c => have := List.length_pos_iff.2 c; omega
  have hall : ∀ t', k ≠ 0 → (∀ n, s.req + 2 ≤ n → n < s.req + 4 + bgRequests s → σ.ok n = true) → inserted σ { s with req := s.req + 1 } t = t' →
      logR t b σ s = (if b then .threw .user else .ok, { s with req := s.req + 4 + bgRequests s, got := s.got ++ s.att.map fun i => (i, t') }) := by
    intro t' h0 hn hi
    unfold logR
    rcases r_mem σ s with ⟨_, m⟩ | ⟨c, _⟩
    · rw [seq_ok m]
      dsimp only
      rw [hi]
      have hsv : saveR t' σ { s with req := s.req + 1 + 1 } = (.ok, { s with req := s.req + 4 + bgRequests s, got := s.got ++ s.att.map fun i => (i, t') }) := by
        rcases save_cases σ { s with req := s.req + 1 + 1 } t' with ⟨_, f⟩ | ⟨c, _⟩ | ⟨⟨n, n1, n2, n3⟩, _⟩
        · exact f.trans (by rw [hbg])
        · have a := hn (s.req + 1 + 1) (by omega) (by omega)
          have a' := hn (s.req + 1 + 1 + 1) (by omega) (by omega)
          rcases c with c | c
          · exact absurd (c.symm.trans a) (by simp)
          · exact absurd (c.symm.trans a') (by simp)
        · rw [hbg] at n2
          have a := hn n (by have : s.req + 1 + 1 + 2 ≤ n := n1; omega) (by have : n < s.req + 1 + 1 + 2 + bgRequests s := n2; omega)
          rw [a] at n3; cases n3
      cases b with
      | false => rw [if_neg (by simp)]; exact hsv
      | true => rw [if_pos rfl]; exact unwind_threw rfl hsv
    · rw [only_at h s.req (by omega)] at c; cases c
  refine ⟨?_, ?_, ?_, ?_, ?_⟩
  · rintro rfl
    simp only [Nat.add_zero] at e
    simp [logR, Sc.seq, Sc.mem, e]
  · rintro rfl
    exact hall _ (by simp) (fun n h1 h2 => only_at h n (by omega)) (by unfold inserted; simp [e])
  · intro hk
    have e0 := only_at h s.req (by omega)
    have ht : ∃ t', inserted σ { s with req := s.req + 1 } t = t' := ⟨_, rfl⟩
    obtain ⟨t', ht⟩ := ht
    have hsv : saveR t' σ { s with req := s.req + 2 } = (.threw .badAlloc, { s with req := s.req + k + 1 }) := by
      rcases hk with rfl | rfl
      · simp [saveR, Sc.seq, Sc.mem, e]
      · have e2 := only_at h (s.req + 2) (by omega)
        simp [saveR, Sc.seq, Sc.mem, e2, e]
    cases b with
    | false =>
      simp only [Bool.false_eq_true, if_false]
      simp [logR, Sc.seq, Sc.mem, e0, ht, hsv]
    | true =>
      simp only [if_true]
      simp [logR, Sc.seq, Sc.mem, Sc.unwind, Sc.raise, e0, ht, hsv]
  · intro h4 hk
    have e0 := only_at h s.req (by omega)
    have ht : ∃ t', inserted σ { s with req := s.req + 1 } t = t' := ⟨_, rfl⟩
    obtain ⟨t', ht⟩ := ht
    have hsv : (saveR t' σ { s with req := s.req + 2 }).1 = .terminated := by
      rcases save_cases σ { s with req := s.req + 2 } t' with ⟨a, _⟩ | ⟨c, _⟩ | ⟨_, _, _, f⟩
      · have := a (s.req + k) (by show s.req + 2 ≤ _; omega) (by rw [hbg]; show s.req + k < s.req + 2 + 2 + _; omega)
        rw [this] at e; cases e
      · have a := only_at h (s.req + 2) (by omega)
        have a' := only_at h (s.req + 2 + 1) (by omega)
        rcases c with c | c
        · exact absurd (c.symm.trans a) (by simp)
        · exact absurd (c.symm.trans a') (by simp)
      · exact f
    unfold logR
    rcases r_mem σ s with ⟨_, m⟩ | ⟨c, _⟩
    · rw [seq_ok m]
      dsimp only
      rw [ht]
      cases b with
      | false => rw [if_neg (by simp)]; exact hsv
      | true => rw [if_pos rfl]; exact unwind_dead2 rfl (by rw [hsv]; simp)
    · rw [e0] at c; cases c
  · intro hk
    exact hall _ (by omega) (fun n h1 h2 => only_at h n (by omega)) (by unfold inserted; simp [only_at h (s.req + 1) (by omega)])

/-! ### Nothing fails -/

theorem log_all (σ : Supply) (s : ScState) (t : Str) (b : Bool) (h : ∀ n, σ.ok n = true) :
    logR t b σ s = (if b then .threw .user else .ok, { s with req := s.req + 4 + bgRequests s, got := s.got ++ s.att.map fun i => (i, t) }) := by
  unfold logR
  rcases r_mem σ s with ⟨_, m⟩ | ⟨c, _⟩
  · rw [seq_ok m]
    dsimp only
    rw [show inserted σ { s with req := s.req + 1 } t = t by unfold inserted; simp [h]]
    have hsv : saveR t σ { s with req := s.req + 1 + 1 } = (.ok, { s with req := s.req + 4 + bgRequests s, got := s.got ++ s.att.map fun i => (i, t) }) := by
      rcases save_cases σ { s with req := s.req + 1 + 1 } t with ⟨_, f⟩ | ⟨c, _⟩ | ⟨⟨n, _, _, n3⟩, _⟩
      · exact f
      · rw [h, h] at c; simp at c
      · rw [h] at n3; cases n3
    cases b with
    | false => rw [if_neg (by simp)]; exact hsv
    | true => rw [if_pos rfl]; exact unwind_threw rfl hsv
  · rw [h] at c; cases c

theorem plenty_exec (σ : Supply) (s : ScState) (o : ROp) (hσ : Plenty σ) (hs : NoLeak s) (hh : o.allowed s = true) :
    (o.exec σ s).1 = Spec.ROp.normal o ∧ scSeen (o.exec σ s).2 = (scSeen s).step o := by
  cases o with
  | create => simp only [ROp.exec]; rw [create_all σ s fun k _ => hσ _]; exact ⟨rfl, rfl⟩
  | add => simp only [ROp.exec]; rw [add_all σ s fun k _ => hσ _]; exact ⟨rfl, rfl⟩
  | remove i =>
    simp only [ROp.exec]
    rw [remove_all σ s i hs fun k _ => hσ _]
    by_cases hi : i ∈ s.att
    · rw [if_pos hi]; exact ⟨rfl, rfl⟩
    · rw [if_neg hi]; refine ⟨rfl, ?_⟩
      simp only [scSeen, Ideal.step, List.erase_of_not_mem hi]
  | removeAll => simp only [ROp.exec]; rw [removeAll_all σ s hs fun k _ => hσ _]; exact ⟨rfl, rfl⟩
  | destroy => simp only [ROp.exec]; rw [destroy_all σ s hs fun k _ => hσ _]; exact ⟨rfl, rfl⟩
  | log t b =>
    simp only [ROp.exec]
    rw [log_all σ s t b hσ]
    cases b <;> exact ⟨rfl, rfl⟩

/-- **C103** as far as it holds: if no request fails all calls do what they are for and return; a LOG whose argument throws throws that exception. (What is missing is what happens when a request fails: `C103_add_one` and the
others.) -/
theorem C103_partial (σ : Supply) (hσ : Plenty σ) : ∀ (ops : List ROp) (s : ScState), NoLeak s →
    (scRun σ s ops).1 = (scSeen s).ends ops ∧ scSeen (scRun σ s ops).2 = (scSeen s).run ops
  | [], _, _ => ⟨rfl, rfl⟩
  | o :: ops, s, hs => by
    have hc : (scSeen s).can o = o.allowed s := by cases o <;> rfl
    unfold scRun Ideal.ends Ideal.run
    rw [hc]
    cases ha : o.allowed s
    · simp only [Bool.false_eq_true, if_false]
      exact C103_partial σ hσ ops s hs
    · simp only [if_true]
      obtain ⟨p1, p2⟩ := plenty_exec σ s o hσ hs ha
      have hx := noleak_exec σ s o hs ha
      revert p1 p2 hx
      cases o.exec σ s with
      | mk r s' =>
        intro p1 p2 hx
        simp only at p1 p2 hx
        have hnt : r ≠ .terminated := by rw [p1]; unfold Spec.ROp.normal; split <;> simp
        obtain ⟨i1, i2⟩ := C103_partial σ hσ ops s' (hx hnt)
        rw [p2] at i1 i2
        cases r with
        | terminated => exact absurd rfl hnt
        | ok => exact ⟨by rw [← p1, ← i1], i2⟩
        | threw e => exact ⟨by rw [← p1, ← i1], i2⟩

/-! ### The property is false -/

/-- The only request that fails is the one with this number. -/
def failing (j : Nat) : Supply := ⟨fun n => !decide (n = j), fun _ => 2⟩

/-- **C103** is false: a handle for a sink that is not there; an exception from `addSink` although the sink is there and receives what is logged; half a text without notice; the end of the process when a thread cannot be
started, when there is no memory in the worker, in `~LogWorker`, and when a LOG whose argument throws finds no memory. -/
theorem C103_negation :
    (let r := scRun (failing 9) .start [.create, .add, .log "hello".toList false]; r.1 = [.ok, .ok, .ok] ∧ r.2.handles = [0] ∧ r.2.att = [] ∧ r.2.gone = [0] ∧ r.2.got = []) ∧
    (let r := scRun (failing 10) .start [.create, .add, .log "hello".toList false]; r.1 = [.ok, .threw .badAlloc, .ok] ∧ r.2.handles = [] ∧ r.2.got = [(0, "hello".toList)]) ∧
    (let r := scRun (failing 12) .start [.create, .add, .log "hello".toList false]; r.1 = [.ok, .ok, .ok] ∧ r.2.got = [(0, "he".toList)]) ∧
    (scRun (failing 2) .start [.create]).1 = [.terminated] ∧
    (scRun (failing 5) .start [.create, .add]).1 = [.ok, .terminated] ∧
    (scRun (failing 15) .start [.create, .add, .log "hello".toList false]).1 = [.ok, .ok, .terminated] ∧
    (scRun (failing 3) .start [.create, .destroy]).1 = [.ok, .terminated] ∧
    (scRun (failing 13) .start [.create, .add, .log "hello".toList true]).1 = [.ok, .ok, .terminated] := by
  decide +kernel

/-! ### Examples -/

example : OnlyFails (failing 9) 9 := fun _ => rfl

/-- A run with a failure that the process survives. -/
example : .terminated ∉ (scRun (failing 12) .start [.create, .add, .log "hello".toList true, .remove 0, .destroy]).1 := by decide +kernel

example : Plenty ⟨fun _ => true, fun _ => 0⟩ := fun _ => rfl

/-- A state with sinks. -/
example : ∃ s, NoLeak s ∧ s.worker = true ∧ s.att = [0, 2] ∧ s.gone = [1] :=
  ⟨(scRun ⟨fun _ => true, fun _ => 0⟩ .start [.create, .add, .add, .add, .remove 1]).2, C103_no_leak _ _ _ noleak_start (by decide +kernel), by decide +kernel⟩

end G3.Props
