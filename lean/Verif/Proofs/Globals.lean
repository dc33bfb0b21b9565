import Verif.Spec.Globals
import Mathlib.Data.List.Induction
/-
Helper lemmas for C90: what protects the accesses to the global variables.
-/
namespace G3.Props
open G3 G3.Spec

/-! ## What the functions use, and what protects it -/

/-- What protects an access. -/
inductive GProt
  | mutex (m : GMutex)
  | once (f : GFlag)     -- in the function that call_once calls
  | past (f : GFlag)     -- after that function
deriving DecidableEq, Repr

/-- What a function uses: the variable, whether it writes, and under which protection. -/
def gUses : GApi → List (GVar × Bool × List GProt)
  | .log => [(.logger, false, []), (.queue, true, [.mutex .queue]), (.first, true, [.once .setFirst]), (.first, false, [.once .setFirst])]
  | .logf => [(.maxSize, false, []), (.logger, false, []), (.queue, true, [.mutex .queue]), (.first, true, [.once .setFirst]), (.first, false, [.once .setFirst])]
  | .fatal => [(.hook, false, []), (.hook, true, [.mutex .hook]), (.handler, false, []), (.logger, false, []), (.queue, true, [.mutex .queue]),
      (.signals, false, []), (.saved, true, [])]
  | .fatalWork => [(.queue, false, [.mutex .queue]), (.queue, true, [.mutex .queue]), (.logger, true, [.mutex .init]), (.signals, false, [.past .initialize]),
      (.saved, true, [.past .initialize])]
  | .initialize => [(.signals, false, [.once .initialize]), (.saved, true, [.once .initialize]), (.logger, false, [.mutex .init]), (.logger, true, [.mutex .init]),
      (.first, false, [.mutex .init, .once .saveFirst]), (.first, true, [.mutex .init, .once .saveFirst]), (.queue, true, [.mutex .queue]),
      (.hook, true, [.mutex .init, .mutex .hook])]
  | .shutDown => [(.logger, true, [.mutex .init])]
  | .destroy => [(.logger, false, []), (.logger, true, [.mutex .init])]
  | .setHook => [(.hook, true, [.mutex .hook])]
  | .setHandler => [(.handler, true, [])]
  | .setMax => [(.maxSize, true, [])]
  | .overrideSignals => [(.signals, false, [.mutex .signal]), (.signals, true, [.mutex .signal]), (.saved, true, [.mutex .signal])]
  | .restoreSignal => [(.saved, true, [])]

/-- Two protections that keep two accesses apart. -/
def gApart : GProt → GProt → Bool
  | .mutex m, .mutex m' => m == m'
  | .once f, .once g => f == g
  | .once f, .past g => f == g
  | .past f, .once g => f == g
  | _, _ => false

/-- Two uses of the same variable, one of them a write, that nothing keeps apart. -/
def gClash (u v : GVar × Bool × List GProt) : Bool := u.1 == v.1 && (u.2.1 || v.2.1) && !(u.2.2.any fun p => v.2.2.any fun q => gApart p q)

def gMayRace (x : GVar) (a b : GApi) : Bool := !(a == .fatalWork && b == .fatalWork) && (gUses a).any fun u => (gUses b).any fun v => u.1 == x && gClash u v

theorem gMayRace_table (x : GVar) (a b : GApi) (h : gMayRace x a b = true) : GForbidden x a b := by
  have H : ∀ x a b, gMayRace x a b = true → (gTable.contains (x, a, b) || gTable.contains (x, b, a)) = true := by
    intro x a b; cases x <;> cases a <;> cases b <;> decide
  have := H x a b h
  simpa [GForbidden, List.contains_iff_mem] using this

/-- Every access in the code is one of the uses, under its protection; `k`: a logger has been set before. -/
def okCode (a : GApi) : List GProt → Bool → GCode → Bool
  | _, _, .ret => true
  | _, _, .stop => true
  | c, k, .lock m n => okCode a (.mutex m :: (if m == .init && k then .past .initialize :: c else c)) k n
  | c, k, .unlock m n => c.contains (.mutex m) && okCode a (c.filter (· != .mutex m)) k n
  | c, k, .once f b n => okCode a (.once f :: c) k b && okCode a (.past f :: c) k n
  | c, k, .leave f n => c.contains (.once f) && okCode a (.past f :: c.filter (· != .once f)) k n
  | c, k, .read x n => (gUses a).any (fun u => u.1 == x && u.2.1 == false && u.2.2.all fun p => c.contains p) &&
      okCode a c (k || x == .logger || x == .queue) (n true) && okCode a c k (n false)
  | c, k, .write x v n => (gUses a).any (fun u => u.1 == x && u.2.1 == true && u.2.2.all fun p => c.contains p) &&
      (!(v == some true && x == .logger) || (c.contains (.mutex .init) && c.contains (.past .initialize))) &&
      (!(v == some true && x == .queue) || k) && okCode a c k n
  | c, k, .atomic n => okCode a c k n

theorem gCode_ok (a : GApi) : okCode a [] false (gCode a) = true := by cases a <;> decide

/-! ## Happens-before -/

variable {tr : List GEvent}

theorem g_get_old {e e' : GEvent} {i : Nat} (h : tr[i]? = some e') : (tr ++ [e])[i]? = some e' := by
  have : i < tr.length := (List.getElem?_eq_some_iff.1 h).1
  rw [List.getElem?_append_left this]; exact h

theorem g_get_new {e : GEvent} : (tr ++ [e])[tr.length]? = some e := by simp

theorem g_get_lt {e e' : GEvent} {i : Nat} (h : (tr ++ [e])[i]? = some e') (hi : i < tr.length) : tr[i]? = some e' := by
  rwa [List.getElem?_append_left hi] at h

theorem g_get_cases {e e' : GEvent} {i : Nat} (h : (tr ++ [e])[i]? = some e') : tr[i]? = some e' ∧ i < tr.length ∨ i = tr.length ∧ e' = e := by
  by_cases hi : i < tr.length
  · exact .inl ⟨g_get_lt h hi, hi⟩
  · right
    have := (List.getElem?_eq_some_iff.1 h).1
    simp at this
    have hi' : i = tr.length := by omega
    subst hi'
    simp at h
    exact ⟨rfl, h.symm⟩

theorem GEdge_lt {at' : Bool} {i j : Nat} (h : GEdge at' tr i j) : i < j := by cases h <;> assumption

theorem GHB_lt {at' : Bool} {i j : Nat} (h : GHB at' tr i j) : i < j := by
  induction h with
  | edge h => exact GEdge_lt h
  | trans _ _ h1 h2 => omega

theorem GEdge_mono {at' : Bool} {e : GEvent} {i j : Nat} (h : GEdge at' tr i j) : GEdge at' (tr ++ [e]) i j := by
  cases h with
  | po h a b c => exact .po h (g_get_old a) (g_get_old b) c
  | mutex h a b c d => exact .mutex h (g_get_old a) (g_get_old b) c d
  | once h a b c d => exact .once h (g_get_old a) (g_get_old b) c d
  | fork h a b c => exact .fork h (g_get_old a) (g_get_old b) c
  | join h a b c => exact .join h (g_get_old a) (g_get_old b) c
  | atomic k h a b c d => exact .atomic k h (g_get_old a) (g_get_old b) c d

theorem GHB_mono {at' : Bool} {e : GEvent} {i j : Nat} (h : GHB at' tr i j) : GHB at' (tr ++ [e]) i j := by
  induction h with
  | edge h => exact .edge (GEdge_mono h)
  | trans _ _ h1 h2 => exact .trans h1 h2

/-- Event `i` happens before what thread `t` does next. -/
def GKnows (tr : List GEvent) (t i : Nat) : Prop := ∃ (k : Nat) (e : GEvent), tr[k]? = some e ∧ e.thr = t ∧ (i = k ∨ GHB false tr i k)

/-- Event `i` happens before the next lock of `m`. -/
def GMKnows (tr : List GEvent) (m : GMutex) (i : Nat) : Prop := ∃ (k : Nat) (e : GEvent), tr[k]? = some e ∧ e.op = .unlock m ∧ (i = k ∨ GHB false tr i k)

def GGuard (tr : List GEvent) (owner : GMutex → Option Nat) (m : GMutex) (i : Nat) : Prop :=
  match owner m with
  | none => GMKnows tr m i
  | some t => GKnows tr t i

theorem knows_mono {e : GEvent} {t i : Nat} (h : GKnows tr t i) : GKnows (tr ++ [e]) t i := by
  obtain ⟨k, e', h1, h2, h3⟩ := h
  exact ⟨k, e', g_get_old h1, h2, h3.imp id GHB_mono⟩

theorem mknows_mono {e : GEvent} {m : GMutex} {i : Nat} (h : GMKnows tr m i) : GMKnows (tr ++ [e]) m i := by
  obtain ⟨k, e', h1, h2, h3⟩ := h
  exact ⟨k, e', g_get_old h1, h2, h3.imp id GHB_mono⟩

theorem ghb_of {i k l : Nat} (h : i = k ∨ GHB false tr i k) (e : GEdge false tr k l) : GHB false tr i l := by
  rcases h with rfl | h
  · exact .edge e
  · exact .trans h (.edge e)

theorem knows_new {e : GEvent} {i : Nat} (h : GKnows tr e.thr i) : GHB false (tr ++ [e]) i tr.length := by
  obtain ⟨k, e', h1, h2, h3⟩ := h
  have hk : k < tr.length := (List.getElem?_eq_some_iff.1 h1).1
  exact ghb_of (h3.imp id GHB_mono) (.po hk (g_get_old h1) g_get_new h2)

theorem mknows_new {e : GEvent} {m : GMutex} {i : Nat} (h : GMKnows tr m i) (ho : e.op = .lock m) : GHB false (tr ++ [e]) i tr.length := by
  obtain ⟨k, e', h1, h2, h3⟩ := h
  have hk : k < tr.length := (List.getElem?_eq_some_iff.1 h1).1
  exact ghb_of (h3.imp id GHB_mono) (.mutex hk (g_get_old h1) g_get_new h2 ho)

theorem knows_self {e : GEvent} : GKnows (tr ++ [e]) e.thr tr.length := ⟨_, e, g_get_new, rfl, .inl rfl⟩

theorem knows_of_new {e : GEvent} {i : Nat} (h : GHB false (tr ++ [e]) i tr.length) : GKnows (tr ++ [e]) e.thr i := ⟨_, e, g_get_new, rfl, .inr h⟩

/-! ## The invariant -/

/-- How an event changes the owner of the mutexes. -/
def OwnerStep (e : GEvent) (owner owner' : GMutex → Option Nat) : Prop :=
  ∀ m, owner' m = owner m ∧ e.op ≠ .lock m ∧ e.op ≠ .unlock m ∨ (e.op = .lock m ∧ owner m = none ∧ owner' m = some e.thr) ∨
    (e.op = .unlock m ∧ owner m = some e.thr ∧ owner' m = none)

/-- How an event changes the once-flags. -/
def FlagStep (e : GEvent) (flag flag' : GFlag → GOnce) : Prop :=
  ∀ f, flag' f = flag f ∧ e.op ≠ .leave f ∨ (flag f = .free ∧ flag' f = .running e.thr) ∨ (e.op = .leave f ∧ flag f = .running e.thr ∧ flag' f = .done e.thr)

theorem guard_event {e : GEvent} {owner owner' : GMutex → Option Nat} {m : GMutex} {i : Nat} (ho : OwnerStep e owner owner') (h : GGuard tr owner m i) :
    GGuard (tr ++ [e]) owner' m i := by
  unfold GGuard at *
  rcases ho m with ⟨h1, _, _⟩ | ⟨h1, h2, h3⟩ | ⟨h1, h2, h3⟩
  · rw [h1]
    cases hm : owner m with
    | none => rw [hm] at h; exact mknows_mono h
    | some t => rw [hm] at h; exact knows_mono h
  · rw [h2] at h; rw [h3]
    exact knows_of_new (mknows_new h h1)
  · rw [h2] at h; rw [h3]
    exact ⟨_, e, g_get_new, h1, .inr (knows_new h)⟩

/-- Thread `t` enjoys a protection. -/
def GHolds (tr : List GEvent) (owner : GMutex → Option Nat) (flag : GFlag → GOnce) (pr : Nat → List GProt) (t : Nat) : GProt → Prop
  | .mutex m => owner m = some t
  | .once f => flag f = .running t
  | .past f => (∃ t', flag f = .done t') ∧ ∀ i < tr.length, .once f ∈ pr i → GKnows tr t i

/-- A logger has been set: the signal handlers have been installed before, and the next owner of the mutex will see it. -/
def GSeen (tr : List GEvent) (owner : GMutex → Option Nat) (flag : GFlag → GOnce) (pr : Nat → List GProt) : Prop :=
  (∃ t, flag .initialize = .done t) ∧ ∀ i < tr.length, .once .initialize ∈ pr i → GGuard tr owner .init i

/-- The events so far; `pr` says how they are protected. -/
structure GCore (tr : List GEvent) (owner : GMutex → Option Nat) (flag : GFlag → GOnce) (pr : Nat → List GProt) : Prop where
  use : ∀ (i : Nat) e, tr[i]? = some e → ∀ x w, GAccess e.op = some (x, w) → ∃ a, e.api = some a ∧ (x, w, pr i) ∈ gUses a
  mtx : ∀ i < tr.length, ∀ m, .mutex m ∈ pr i → GGuard tr owner m i
  mm : ∀ i j, i < j → j < tr.length → ∀ m, .mutex m ∈ pr i → .mutex m ∈ pr j → GHB false tr i j
  one : ∀ (i : Nat) e f, tr[i]? = some e → .once f ∈ pr i → flag f = .running e.thr ∨ flag f = .done e.thr
  dn : ∀ f t, flag f = .done t → ∃ (c : Nat) (e : GEvent), tr[c]? = some e ∧ e.op = .leave f ∧ ∀ i < tr.length, .once f ∈ pr i → GHB false tr i c
  pst : ∀ j < tr.length, ∀ f, .past f ∈ pr j → (∃ t, flag f = .done t) ∧ ∀ i < tr.length, .once f ∈ pr i → GHB false tr i j

/-- The protections with those of a new event. -/
def prAdd (tr : List GEvent) (pr : Nat → List GProt) (ps : List GProt) : Nat → List GProt := fun i => if i = tr.length then ps else pr i

theorem prAdd_old {pr : Nat → List GProt} {ps : List GProt} {i : Nat} (h : i < tr.length) : prAdd tr pr ps i = pr i := by
  unfold prAdd; rw [if_neg (by omega)]

theorem prAdd_new {pr : Nat → List GProt} {ps : List GProt} : prAdd tr pr ps tr.length = ps := by
  unfold prAdd; rw [if_pos rfl]

theorem lt_cases {e : GEvent} {i : Nat} (h : i < (tr ++ [e]).length) : i < tr.length ∨ i = tr.length := by
  simp at h; omega

variable {owner owner' : GMutex → Option Nat} {flag flag' : GFlag → GOnce} {pr : Nat → List GProt}

theorem done_event {e : GEvent} {f : GFlag} {t : Nat} (hf : FlagStep e flag flag') (h : flag f = .done t) : flag' f = .done t := by
  rcases hf f with ⟨h1, _⟩ | ⟨h1, _⟩ | ⟨_, h1, _⟩
  · rw [h1, h]
  · rw [h] at h1; cases h1
  · rw [h] at h1; cases h1

theorem core_event {e : GEvent} {ps : List GProt} (C : GCore tr owner flag pr) (ho : OwnerStep e owner owner') (hf : FlagStep e flag flag')
    (hu : ∀ x w, GAccess e.op = some (x, w) → ∃ a, e.api = some a ∧ (x, w, ps) ∈ gUses a)
    (hp : ∀ p ∈ ps, GHolds tr owner flag pr e.thr p) (hs : ps ≠ [] → owner' = owner ∧ flag' = flag) :
    GCore (tr ++ [e]) owner' flag' (prAdd tr pr ps) := by
  have hs' : ∀ p ∈ ps, owner' = owner ∧ flag' = flag := fun p h => hs (fun h' => by rw [h'] at h; cases h)
  constructor
  · intro i e' h x w ha
    rcases g_get_cases h with ⟨h1, h2⟩ | ⟨rfl, rfl⟩
    · rw [prAdd_old h2]; exact C.use i e' h1 x w ha
    · rw [prAdd_new]; exact hu x w ha
  · intro i hi m hm
    rcases lt_cases hi with h | rfl
    · rw [prAdd_old h] at hm
      exact guard_event ho (C.mtx i h m hm)
    · rw [prAdd_new] at hm
      have := hp _ hm
      unfold GGuard
      rw [(hs' _ hm).1, show owner m = some e.thr from this]
      exact knows_self
  · intro i j hij hj m hmi hmj
    rcases lt_cases hj with h | rfl
    · rw [prAdd_old h] at hmj; rw [prAdd_old (by omega)] at hmi
      exact GHB_mono (C.mm i j hij h m hmi hmj)
    · rw [prAdd_new] at hmj; rw [prAdd_old hij] at hmi
      have := C.mtx i hij m hmi
      unfold GGuard at this
      rw [show owner m = some e.thr from hp _ hmj] at this
      exact knows_new this
  · intro i e' f h hm
    rcases g_get_cases h with ⟨h1, h2⟩ | ⟨rfl, rfl⟩
    · rw [prAdd_old h2] at hm
      have := C.one i e' f h1 hm
      rcases hf f with ⟨g, _⟩ | ⟨g, _⟩ | ⟨_, g, g'⟩
      · rw [g]; exact this
      · rw [g] at this; rcases this with h | h <;> cases h
      · rw [g] at this
        rcases this with h | h
        · injection h with h; rw [g', h]; exact .inr rfl
        · cases h
    · rw [prAdd_new] at hm
      rw [(hs' _ hm).2]; exact .inl (hp _ hm)
  · intro f t ht
    rcases hf f with ⟨g, _⟩ | ⟨_, g⟩ | ⟨g0, g, g'⟩
    · rw [g] at ht
      obtain ⟨c, e', h1, h2, h3⟩ := C.dn f t ht
      refine ⟨c, e', g_get_old h1, h2, fun i hi hm => ?_⟩
      rcases lt_cases hi with h | rfl
      · rw [prAdd_old h] at hm; exact GHB_mono (h3 i h hm)
      · rw [prAdd_new] at hm
        have : flag f = .running e.thr := hp _ hm
        rw [ht] at this; cases this
    · rw [g] at ht; cases ht
    · refine ⟨_, e, g_get_new, g0, fun i hi hm => ?_⟩
      rcases lt_cases hi with h | rfl
      · rw [prAdd_old h] at hm
        obtain ⟨e', he'⟩ : ∃ e', tr[i]? = some e' := ⟨_, List.getElem?_eq_getElem h⟩
        have := C.one i e' f he' hm
        rw [g] at this
        rcases this with h' | h'
        · injection h' with h'
          exact .edge (.po h (g_get_old he') g_get_new h'.symm)
        · cases h'
      · rw [prAdd_new] at hm
        have := (hs' _ hm).2
        rw [this, g] at g'; cases g'
  · intro j hj f hm
    rcases lt_cases hj with h | rfl
    · rw [prAdd_old h] at hm
      obtain ⟨⟨t, ht⟩, h2⟩ := C.pst j h f hm
      refine ⟨⟨t, done_event hf ht⟩, fun i hi hm' => ?_⟩
      rcases lt_cases hi with h' | rfl
      · rw [prAdd_old h'] at hm'; exact GHB_mono (h2 i h' hm')
      · rw [prAdd_new] at hm'
        have : flag f = .running e.thr := hp _ hm'
        rw [ht] at this; cases this
    · rw [prAdd_new] at hm
      have hh := hp _ hm
      simp only [GHolds] at hh
      obtain ⟨⟨t, ht⟩, h2⟩ := hh
      refine ⟨⟨t, done_event hf ht⟩, fun i hi hm' => ?_⟩
      rcases lt_cases hi with h' | rfl
      · rw [prAdd_old h'] at hm'; exact knows_new (h2 i h' hm')
      · rw [prAdd_new] at hm'
        have : flag f = .running e.thr := hp _ hm'
        rw [ht] at this; cases this

theorem seen_event {e : GEvent} {ps : List GProt} (ho : OwnerStep e owner owner') (hf : FlagStep e flag flag')
    (hp : ∀ p ∈ ps, GHolds tr owner flag pr e.thr p) (h : GSeen tr owner flag pr) : GSeen (tr ++ [e]) owner' flag' (prAdd tr pr ps) := by
  obtain ⟨⟨t, ht⟩, h2⟩ := h
  refine ⟨⟨t, done_event hf ht⟩, fun i hi hm => ?_⟩
  rcases lt_cases hi with h' | rfl
  · rw [prAdd_old h'] at hm; exact guard_event ho (h2 i h' hm)
  · rw [prAdd_new] at hm
    have : flag .initialize = .running e.thr := hp _ hm
    rw [ht] at this; cases this

theorem holds_event {e : GEvent} {ps : List GProt} {t : Nat} {p : GProt} (ho : OwnerStep e owner owner') (hf : FlagStep e flag flag')
    (hp : ∀ p ∈ ps, GHolds tr owner flag pr e.thr p) (h : GHolds tr owner flag pr t p)
    (hk : t ≠ e.thr ∨ (∀ m, p = .mutex m → e.op ≠ .unlock m) ∧ ∀ f, p = .once f → e.op ≠ .leave f) :
    GHolds (tr ++ [e]) owner' flag' (prAdd tr pr ps) t p := by
  cases p with
  | mutex m =>
    have h : owner m = some t := h
    show owner' m = some t
    rcases ho m with ⟨g, _⟩ | ⟨_, g, _⟩ | ⟨g1, g, _⟩
    · rw [g, h]
    · rw [h] at g; cases g
    · rw [h] at g; injection g with g
      rcases hk with hk | hk
      · exact absurd g hk
      · exact absurd g1 (hk.1 m rfl)
  | once f =>
    have h : flag f = .running t := h
    show flag' f = .running t
    rcases hf f with ⟨g, _⟩ | ⟨g, _⟩ | ⟨g1, g, _⟩
    · rw [g, h]
    · rw [h] at g; cases g
    · rw [h] at g; injection g with g
      rcases hk with hk | hk
      · exact absurd g hk
      · exact absurd g1 (hk.2 f rfl)
  | past f =>
    obtain ⟨⟨t', ht⟩, h2⟩ := h
    refine ⟨⟨t', done_event hf ht⟩, fun i hi hm => ?_⟩
    rcases lt_cases hi with h' | rfl
    · rw [prAdd_old h'] at hm; exact knows_mono (h2 i h' hm)
    · rw [prAdd_new] at hm
      have : flag f = .running e.thr := hp _ hm
      rw [ht] at this; cases this

/-- The invariant of a program `p`. -/
structure GInv (p : Nat → List GItem) (s : GState) (pr : Nat → List GProt) : Prop where
  core : GCore s.tr s.owner s.flag pr
  val : s.val .logger = true ∨ s.val .queue = true → GSeen s.tr s.owner s.flag pr
  cur : ∀ t a c, s.cur t = some (a, c) → ∃ ctx k, okCode a ctx k c = true ∧ (∀ q ∈ ctx, GHolds s.tr s.owner s.flag pr t q) ∧
    (k = true → GSeen s.tr s.owner s.flag pr)
  item : ∀ t a, .call a ∈ s.prog t → .call a ∈ p t
  capi : ∀ t a c, s.cur t = some (a, c) → .call a ∈ p t
  eapi : ∀ (i : Nat) e a, s.tr[i]? = some e → e.api = some a → .call a ∈ p e.thr

theorem owner_same {e : GEvent} (h : ∀ m, e.op ≠ .lock m ∧ e.op ≠ .unlock m) : OwnerStep e owner owner := fun m => .inl ⟨rfl, (h m).1, (h m).2⟩

theorem flag_same {e : GEvent} (h : ∀ f, e.op ≠ .leave f) : FlagStep e flag flag := fun f => .inl ⟨rfl, h f⟩

/-- The thread `t` makes an access in a call of `a`. -/
theorem inv_access {p : Nat → List GItem} {s : GState} {t : Nat} {a : GApi} {c0 c : GCode} {o : GOp} {val' : GVar → Bool} {ps : List GProt} (I : GInv p s pr)
    (hc : s.cur t = some (a, c0)) (ho : OwnerStep ⟨t, some a, o⟩ s.owner owner') (hf : FlagStep ⟨t, some a, o⟩ s.flag flag')
    (hu : ∀ x w, GAccess o = some (x, w) → (x, w, ps) ∈ gUses a)
    (hp : ∀ q ∈ ps, GHolds s.tr s.owner s.flag pr t q) (hs : ps ≠ [] → owner' = s.owner ∧ flag' = s.flag)
    (hv : val' .logger = true ∨ val' .queue = true → GSeen (s.tr ++ [⟨t, some a, o⟩]) owner' flag' (prAdd s.tr pr ps))
    (hn : ∃ ctx k, okCode a ctx k c = true ∧ (∀ q ∈ ctx, GHolds (s.tr ++ [⟨t, some a, o⟩]) owner' flag' (prAdd s.tr pr ps) t q) ∧
      (k = true → GSeen (s.tr ++ [⟨t, some a, o⟩]) owner' flag' (prAdd s.tr pr ps))) :
    ∃ pr', GInv p { s with cur := gSet s.cur t (some (a, c)), tr := s.tr ++ [⟨t, some a, o⟩], owner := owner', flag := flag', val := val' } pr' := by
  refine ⟨prAdd s.tr pr ps, ?_, hv, ?_, I.item, ?_, ?_⟩
  · exact core_event I.core ho hf (fun x w h => ⟨a, rfl, hu x w h⟩) hp hs
  · intro t' a' c' h
    simp only [gSet] at h
    by_cases ht : t' = t
    · subst ht
      rw [if_pos rfl] at h
      injection h with h; injection h with h1 h2; subst h1 h2
      exact hn
    · rw [if_neg ht] at h
      obtain ⟨ctx, k, h1, h2, h3⟩ := I.cur t' a' c' h
      exact ⟨ctx, k, h1, fun q hq => holds_event ho hf hp (h2 q hq) (.inl ht), fun hk => seen_event ho hf hp (h3 hk)⟩
  · intro t' a' c' h
    simp only [gSet] at h
    by_cases ht : t' = t
    · subst ht
      rw [if_pos rfl] at h
      injection h with h; injection h with h1 h2; subst h1
      exact I.capi t' a c0 hc
    · rw [if_neg ht] at h
      exact I.capi t' a' c' h
  · intro i e b h hb
    rcases g_get_cases h with ⟨h1, _⟩ | ⟨rfl, rfl⟩
    · exact I.eapi i e b h1 hb
    · injection hb with hb; subst hb
      exact I.capi t a c0 hc

theorem ginv_start (p : Nat → List GItem) : GInv p (gStart p) fun _ => [] := by
  constructor
  · constructor <;> intros <;> simp_all [gStart]
  · intro h; simp [gStart] at h
  · intro t a c h; simp [gStart] at h
  · intro t a h; exact h
  · intro t a c h; simp [gStart] at h
  · intro i e a h; simp [gStart] at h

theorem any_use {a : GApi} {x : GVar} {w : Bool} {ctx : List GProt} (h : ((gUses a).any fun u => u.1 == x && u.2.1 == w && u.2.2.all fun p => ctx.contains p) = true) :
    ∃ ps, (x, w, ps) ∈ gUses a ∧ ∀ q ∈ ps, q ∈ ctx := by
  simp only [List.any_eq_true, Bool.and_eq_true, beq_iff_eq, List.all_eq_true, List.contains_iff_mem] at h
  obtain ⟨⟨x', w', ps⟩, h1, ⟨h2, h3⟩, h4⟩ := h
  simp only at h2 h3 h4
  subst h2 h3
  exact ⟨ps, h1, h4⟩

theorem exec_inv {p : Nat → List GItem} {s s' : GState} {t : Nat} {a : GApi} {c : GCode} (I : GInv p s pr) (hc : s.cur t = some (a, c))
    (h : gExec s t a c = some s') : ∃ pr', GInv p s' pr' := by
  obtain ⟨ctx, k, hok, hh, hk⟩ := I.cur t a c hc
  cases c with
  | ret =>
    simp only [gExec, Option.some.injEq] at h
    subst h
    refine ⟨pr, I.core, I.val, ?_, I.item, ?_, I.eapi⟩
    · intro t' a' c' h
      simp only [gSet] at h
      by_cases ht : t' = t
      · rw [if_pos ht] at h; cases h
      · rw [if_neg ht] at h; exact I.cur t' a' c' h
    · intro t' a' c' h
      simp only [gSet] at h
      by_cases ht : t' = t
      · rw [if_pos ht] at h; cases h
      · rw [if_neg ht] at h; exact I.capi t' a' c' h
  | stop => cases h
  | lock m n =>
    simp only [gExec] at h
    by_cases hm : s.owner m = none
    · rw [if_pos hm] at h
      injection h with h; subst h
      have ho : OwnerStep ⟨t, some a, .lock m⟩ s.owner (gSet s.owner m (some t)) := by
        intro m'
        by_cases e : m' = m
        · subst e; exact .inr (.inl ⟨rfl, hm, by simp [gSet]⟩)
        · refine .inl ⟨by simp [gSet, e], ?_, by simp⟩
          intro h'; injection h' with h'; exact e h'.symm
      have hf : FlagStep ⟨t, some a, .lock m⟩ s.flag s.flag := flag_same (by simp)
      refine inv_access (ps := []) I hc ho hf (by simp [GAccess]) (by simp) (by simp) (fun hv => seen_event ho hf (by simp) (I.val hv)) ?_
      simp only [okCode] at hok
      refine ⟨_, k, hok, ?_, fun h => seen_event ho hf (by simp) (hk h)⟩
      intro q hq
      rcases List.mem_cons.1 hq with rfl | hq
      · show gSet s.owner m (some t) m = some t
        simp [gSet]
      · have old : ∀ q ∈ ctx, GHolds (s.tr ++ [⟨t, some a, .lock m⟩]) (gSet s.owner m (some t)) s.flag (prAdd s.tr pr []) t q :=
          fun q hq => holds_event ho hf (by simp) (hh q hq) (.inr ⟨by simp, by simp⟩)
        by_cases hi : (m == .init && k) = true
        · rw [if_pos hi] at hq
          rcases List.mem_cons.1 hq with rfl | hq
          · simp only [Bool.and_eq_true, beq_iff_eq] at hi
            obtain ⟨⟨t', ht'⟩, hg⟩ := hk hi.2
            refine ⟨⟨t', ht'⟩, fun i hl hm' => ?_⟩
            rcases lt_cases hl with h' | rfl
            · rw [prAdd_old h'] at hm'
              have := guard_event ho (hg i h' hm')
              unfold GGuard at this
              rw [show gSet s.owner m (some t) .init = some t by simp [gSet, hi.1]] at this
              exact this
            · rw [prAdd_new] at hm'; cases hm'
          · exact old q hq
        · rw [if_neg hi] at hq; exact old q hq
    · rw [if_neg hm] at h; cases h
  | unlock m n =>
    simp only [gExec] at h
    by_cases hm : s.owner m = some t
    · rw [if_pos hm] at h
      injection h with h; subst h
      have ho : OwnerStep ⟨t, some a, .unlock m⟩ s.owner (gSet s.owner m none) := by
        intro m'
        by_cases e : m' = m
        · subst e; exact .inr (.inr ⟨rfl, hm, by simp [gSet]⟩)
        · refine .inl ⟨by simp [gSet, e], by simp, ?_⟩
          intro h'; injection h' with h'; exact e h'.symm
      have hf : FlagStep ⟨t, some a, .unlock m⟩ s.flag s.flag := flag_same (by simp)
      refine inv_access (ps := []) I hc ho hf (by simp [GAccess]) (by simp) (by simp) (fun hv => seen_event ho hf (by simp) (I.val hv)) ?_
      simp only [okCode, Bool.and_eq_true] at hok
      refine ⟨_, k, hok.2, ?_, fun h => seen_event ho hf (by simp) (hk h)⟩
      intro q hq
      obtain ⟨h1, h2⟩ := List.mem_filter.1 hq
      refine holds_event ho hf (by simp) (hh q h1) (.inr ⟨?_, by simp⟩)
      intro m' e h'
      injection h' with h'; subst h' e; simp at h2
    · rw [if_neg hm] at h; cases h
  | once f b n =>
    simp only [gExec] at h
    simp only [okCode, Bool.and_eq_true] at hok
    cases hfl : s.flag f with
    | free =>
      rw [hfl] at h
      injection h with h; subst h
      have ho : OwnerStep ⟨t, some a, .enter f⟩ s.owner s.owner := owner_same (by simp)
      have hf : FlagStep ⟨t, some a, .enter f⟩ s.flag (gSet s.flag f (.running t)) := by
        intro f'
        by_cases e : f' = f
        · subst e; exact .inr (.inl ⟨hfl, by simp [gSet]⟩)
        · exact .inl ⟨by simp [gSet, e], by simp⟩
      refine inv_access (ps := []) I hc ho hf (by simp [GAccess]) (by simp) (by simp) (fun hv => seen_event ho hf (by simp) (I.val hv)) ?_
      refine ⟨_, k, hok.1, ?_, fun h => seen_event ho hf (by simp) (hk h)⟩
      intro q hq
      rcases List.mem_cons.1 hq with rfl | hq
      · show gSet s.flag f (.running t) f = .running t
        simp [gSet]
      · exact holds_event ho hf (by simp) (hh q hq) (.inr ⟨by simp, by simp⟩)
    | running t' => rw [hfl] at h; cases h
    | done t' =>
      rw [hfl] at h
      injection h with h; subst h
      have ho : OwnerStep ⟨t, some a, .passed f⟩ s.owner s.owner := owner_same (by simp)
      have hf : FlagStep ⟨t, some a, .passed f⟩ s.flag s.flag := flag_same (by simp)
      refine inv_access (ps := []) I hc ho hf (by simp [GAccess]) (by simp) (by simp) (fun hv => seen_event ho hf (by simp) (I.val hv)) ?_
      refine ⟨_, k, hok.2, ?_, fun h => seen_event ho hf (by simp) (hk h)⟩
      intro q hq
      rcases List.mem_cons.1 hq with rfl | hq
      · refine ⟨⟨t', hfl⟩, fun i hi hm => ?_⟩
        obtain ⟨c, e, h1, h2, h3⟩ := I.core.dn f t' hfl
        have hlt : c < s.tr.length := (List.getElem?_eq_some_iff.1 h1).1
        rcases lt_cases hi with h' | rfl
        · rw [prAdd_old h'] at hm
          exact knows_of_new (e := ⟨t, some a, .passed f⟩) (.trans (GHB_mono (h3 i h' hm)) (.edge (.once hlt (g_get_old h1) g_get_new h2 rfl)))
        · rw [prAdd_new] at hm; cases hm
      · exact holds_event ho hf (by simp) (hh q hq) (.inr ⟨by simp, by simp⟩)
  | leave f n =>
    simp only [gExec] at h
    simp only [okCode, Bool.and_eq_true] at hok
    by_cases hfl : s.flag f = .running t
    · rw [if_pos hfl] at h
      injection h with h; subst h
      have ho : OwnerStep ⟨t, some a, .leave f⟩ s.owner s.owner := owner_same (by simp)
      have hf : FlagStep ⟨t, some a, .leave f⟩ s.flag (gSet s.flag f (.done t)) := by
        intro f'
        by_cases e : f' = f
        · subst e; exact .inr (.inr ⟨rfl, hfl, by simp [gSet]⟩)
        · refine .inl ⟨by simp [gSet, e], ?_⟩
          intro h'; injection h' with h'; exact e h'.symm
      refine inv_access (ps := []) I hc ho hf (by simp [GAccess]) (by simp) (by simp) (fun hv => seen_event ho hf (by simp) (I.val hv)) ?_
      refine ⟨_, k, hok.2, ?_, fun h => seen_event ho hf (by simp) (hk h)⟩
      intro q hq
      rcases List.mem_cons.1 hq with rfl | hq
      · refine ⟨⟨t, by simp [gSet]⟩, fun i hi hm => ?_⟩
        rcases lt_cases hi with h' | rfl
        · rw [prAdd_old h'] at hm
          obtain ⟨e', he'⟩ : ∃ e', s.tr[i]? = some e' := ⟨_, List.getElem?_eq_getElem h'⟩
          have := I.core.one i e' f he' hm
          rw [hfl] at this
          rcases this with h1 | h1
          · injection h1 with h1
            exact ⟨i, e', g_get_old he', h1.symm, .inl rfl⟩
          · cases h1
        · rw [prAdd_new] at hm; cases hm
      · obtain ⟨h1, h2⟩ := List.mem_filter.1 hq
        refine holds_event ho hf (by simp) (hh q h1) (.inr ⟨by simp, ?_⟩)
        intro f' e h'
        injection h' with h'; subst h' e; simp at h2
    · rw [if_neg hfl] at h; cases h
  | read x n =>
    simp only [gExec] at h
    injection h with h; subst h
    simp only [okCode, Bool.and_eq_true] at hok
    obtain ⟨⟨hus, h1⟩, h2⟩ := hok
    obtain ⟨ps, hu, hps⟩ := any_use hus
    have ho : OwnerStep ⟨t, some a, .read x⟩ s.owner s.owner := owner_same (by simp)
    have hf : FlagStep ⟨t, some a, .read x⟩ s.flag s.flag := flag_same (by simp)
    have hp : ∀ q ∈ ps, GHolds s.tr s.owner s.flag pr t q := fun q hq => hh q (hps q hq)
    refine inv_access (ps := ps) I hc ho hf ?_ hp (fun _ => ⟨rfl, rfl⟩) (fun hv => seen_event ho hf hp (I.val hv)) ?_
    · intro x' w' e
      simp only [GAccess, Option.some.injEq, Prod.mk.injEq] at e
      rw [← e.1, ← e.2]; exact hu
    · have old : ∀ q ∈ ctx, GHolds (s.tr ++ [⟨t, some a, .read x⟩]) s.owner s.flag (prAdd s.tr pr ps) t q :=
        fun q hq => holds_event ho hf hp (hh q hq) (.inr ⟨by simp, by simp⟩)
      cases hb : s.val x with
      | true =>
        refine ⟨ctx, _, h1, old, fun h => seen_event ho hf hp ?_⟩
        simp only [Bool.or_eq_true, beq_iff_eq] at h
        rcases h with (h | h) | h
        · exact hk h
        · subst h; exact I.val (.inl hb)
        · subst h; exact I.val (.inr hb)
      | false => exact ⟨ctx, _, h2, old, fun h => seen_event ho hf hp (hk h)⟩
  | write x v n =>
    simp only [gExec] at h
    injection h with h; subst h
    simp only [okCode, Bool.and_eq_true] at hok
    obtain ⟨⟨⟨hus, h1⟩, h2⟩, h3⟩ := hok
    obtain ⟨ps, hu, hps⟩ := any_use hus
    have ho : OwnerStep ⟨t, some a, .write x⟩ s.owner s.owner := owner_same (by simp)
    have hf : FlagStep ⟨t, some a, .write x⟩ s.flag s.flag := flag_same (by simp)
    have hp : ∀ q ∈ ps, GHolds s.tr s.owner s.flag pr t q := fun q hq => hh q (hps q hq)
    refine inv_access (ps := ps) I hc ho hf ?_ hp (fun _ => ⟨rfl, rfl⟩) ?_ ?_
    · intro x' w' e
      simp only [GAccess, Option.some.injEq, Prod.mk.injEq] at e
      rw [← e.1, ← e.2]; exact hu
    · intro hv
      refine seen_event ho hf hp ?_
      by_cases hold : s.val .logger = true ∨ s.val .queue = true
      · exact I.val hold
      · have hvx : v = some true ∧ (x = .logger ∨ x = .queue) := by
          simp only [not_or, Bool.not_eq_true] at hold
          cases v with
          | none =>
            exfalso
            simp only [gSet, Option.getD_none] at hv
            rcases hv with hv | hv <;> (split at hv <;> rename_i e <;> [(rw [← e] at hv; simp [hold] at hv); simp [hold] at hv])
          | some v =>
            simp only [gSet, Option.getD_some] at hv
            rcases hv with hv | hv
            · split at hv
              · rename_i e; exact ⟨by rw [hv], .inl e.symm⟩
              · simp [hold] at hv
            · split at hv
              · rename_i e; exact ⟨by rw [hv], .inr e.symm⟩
              · simp [hold] at hv
        obtain ⟨rfl, rfl | rfl⟩ := hvx
        · simp [List.contains_iff_mem] at h1
          obtain ⟨hd, hkn⟩ := hh _ h1.2
          refine ⟨hd, fun i hi hm => ?_⟩
          unfold GGuard
          rw [show s.owner .init = some t from hh _ h1.1]
          exact hkn i hi hm
        · simp at h2; exact hk h2
    · exact ⟨ctx, k, h3, fun q hq => holds_event ho hf hp (hh q hq) (.inr ⟨by simp, by simp⟩), fun h => seen_event ho hf hp (hk h)⟩
  | atomic n =>
    simp only [gExec] at h
    injection h with h; subst h
    have ho : OwnerStep ⟨t, some a, .atomic⟩ s.owner s.owner := owner_same (by simp)
    have hf : FlagStep ⟨t, some a, .atomic⟩ s.flag s.flag := flag_same (by simp)
    refine inv_access (ps := []) I hc ho hf (by simp [GAccess]) (by simp) (by simp) (fun hv => seen_event ho hf (by simp) (I.val hv)) ?_
    simp only [okCode] at hok
    exact ⟨ctx, k, hok, fun q hq => holds_event ho hf (by simp) (hh q hq) (.inr ⟨by simp, by simp⟩), fun h => seen_event ho hf (by simp) (hk h)⟩

/-- An event outside of calls. -/
theorem inv_other {p : Nat → List GItem} {s : GState} {t : Nat} {r : List GItem} {i : GItem} {o : GOp} {st : Nat → Bool} (I : GInv p s pr)
    (hp : s.prog t = i :: r) (ho : ∀ m, o ≠ .lock m ∧ o ≠ .unlock m) (hf : ∀ f, o ≠ .leave f) (ha : GAccess o = none) :
    ∃ pr', GInv p { s with started := st, prog := gSet s.prog t r, tr := s.tr ++ [⟨t, none, o⟩] } pr' := by
  have ho : OwnerStep ⟨t, none, o⟩ s.owner s.owner := owner_same ho
  have hf : FlagStep ⟨t, none, o⟩ s.flag s.flag := flag_same hf
  refine ⟨prAdd s.tr pr [], ?_, fun hv => seen_event ho hf (by simp) (I.val hv), ?_, ?_, I.capi, ?_⟩
  · exact core_event I.core ho hf (fun x w h => by simp only [ha] at h; cases h) (by simp) (by simp)
  · intro t' a' c' h
    obtain ⟨ctx, k, h1, h2, h3⟩ := I.cur t' a' c' h
    refine ⟨ctx, k, h1, fun q hq => holds_event ho hf (by simp) (h2 q hq) (.inr ⟨fun m _ => ?_, fun f _ => ?_⟩), fun hk => seen_event ho hf (by simp) (h3 hk)⟩
    · exact (‹∀ m, o ≠ .lock m ∧ o ≠ .unlock m› m).2
    · exact ‹∀ f, o ≠ .leave f› f
  · intro t' a h
    simp only [gSet] at h
    by_cases ht : t' = t
    · rw [if_pos ht] at h; subst ht
      exact I.item t' a (by rw [hp]; exact List.mem_cons_of_mem _ h)
    · rw [if_neg ht] at h; exact I.item t' a h
  · intro i e b h hb
    rcases g_get_cases h with ⟨h1, _⟩ | ⟨rfl, rfl⟩
    · exact I.eapi i e b h1 hb
    · cases hb

theorem step_inv {p : Nat → List GItem} {s s' : GState} {t : Nat} (I : GInv p s pr) (h : gStep s t = some s') : ∃ pr', GInv p s' pr' := by
  unfold gStep at h
  by_cases hs : s.started t = false
  · rw [if_pos hs] at h; cases h
  rw [if_neg hs] at h
  cases hc : s.cur t with
  | some ac =>
    obtain ⟨a, c⟩ := ac
    rw [hc] at h
    exact exec_inv I hc h
  | none =>
    rw [hc] at h
    cases hp : s.prog t with
    | nil => rw [hp] at h; cases h
    | cons i r =>
      rw [hp] at h
      cases i with
      | call a =>
        injection h with h; subst h
        have ha : .call a ∈ p t := I.item t a (by rw [hp]; exact List.mem_cons_self)
        refine ⟨pr, I.core, I.val, ?_, ?_, ?_, I.eapi⟩
        · intro t' a' c' h
          simp only [gSet] at h
          by_cases ht : t' = t
          · rw [if_pos ht] at h
            injection h with h; injection h with h1 h2; subst h1 h2
            exact ⟨[], false, gCode_ok a, by simp, by simp⟩
          · rw [if_neg ht] at h; exact I.cur t' a' c' h
        · intro t' a' h
          simp only [gSet] at h
          by_cases ht : t' = t
          · rw [if_pos ht] at h; subst ht
            exact I.item t' a' (by rw [hp]; exact List.mem_cons_of_mem _ h)
          · rw [if_neg ht] at h; exact I.item t' a' h
        · intro t' a' c' h
          simp only [gSet] at h
          by_cases ht : t' = t
          · rw [if_pos ht] at h
            injection h with h; injection h with h1 h2; subst h1 ht
            exact ha
          · rw [if_neg ht] at h; exact I.capi t' a' c' h
      | fork u =>
        by_cases hu : s.started u = true
        · simp [hu] at h
        · simp only [hu] at h
          injection h with h; subst h
          exact inv_other I hp (by simp) (by simp) rfl
      | join u =>
        simp only at h
        by_cases hu : s.started u = true ∧ s.prog u = [] ∧ s.cur u = none
        · rw [if_pos hu] at h
          injection h with h; subst h
          exact inv_other (st := s.started) I hp (by simp) (by simp) rfl
        · rw [if_neg hu] at h; cases h

theorem run_inv {p : Nat → List GItem} {s s' : GState} {ts : List Nat} (I : ∃ pr, GInv p s pr) (h : gRun s ts = some s') : ∃ pr', GInv p s' pr' := by
  induction ts generalizing s with
  | nil => injection h with h; subst h; exact I
  | cons t ts ih =>
    simp only [gRun] at h
    cases hs : gStep s t with
    | none => rw [hs] at h; cases h
    | some s1 =>
      rw [hs] at h
      obtain ⟨pr, I⟩ := I
      exact ih (step_inv I hs) h

end G3.Props
