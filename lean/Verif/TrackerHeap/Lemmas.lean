import Verif.TrackerHeap.Model
import Verif.DList.Props
/-
The lists of the tracker on the heap.
-/
namespace CUtil.TrackerHeap
open CUtil CUtil.DList
open CUtil.Tracker (Match Obj Res URes ARes Key T scan Found)
open CUtil.Conc (upd upd_apply)

/-- The lists there should be: the keys `K` of the tracker, the objects `O k` of each of them. -/
def world (K : List Nat) (O : Nat → List Nat) : World := fun a =>
  if a = 1 then some (K.map (2 * ·)) else if a % 2 = 1 ∧ a / 2 ∈ K then some ((O (a / 2)).map (2 * ·)) else none

/-- The heap holds the keys `K`, in this order, the key `k` the objects `O k`, in this order; nothing else is allocated. -/
structure Rep (m : Mem) (K : List Nat) (O : Nat → List Nat) : Prop where
  ok : Ok m.d (world K O)
  key : ∀ n, m.key n ≠ none ↔ n ∈ K
  obj : ∀ n, m.obj n ≠ none ↔ ∃ k ∈ K, n ∈ O k
  no0 : 0 ∉ K

/-- What the structures hold, as the lists of Verif/Tracker. -/
def keyAt (m : Mem) (O : Nat → List Nat) (k : Nat) : Key := ⟨(m.key k).getD 0, (O k).map fun o => (m.obj o).getD ⟨0, 0, 0⟩⟩

/-- The number of blocks. -/
def total (K : List Nat) (O : Nat → List Nat) : Nat := K.length + (K.map fun k => (O k).length).sum

/-- The tracker of Verif/Tracker that the heap represents. -/
def abs (m : Mem) (K : List Nat) (O : Nat → List Nat) : T := ⟨K.map (keyAt m O), false, total K O⟩

theorem withD_d {m : Mem} {h : Heap} (e : h.alive = m.d.alive) : (m.withD h).d = h := by
  cases h; simp only [Mem.d, Mem.withD] at *; rw [← e]

theorem ok_mono {h h' : Heap} {W : World} (ok : Ok h W) (hf : h'.f = h.f) (hb : h'.b = h.b) (ha : ∀ a es, W a = some es → ∀ p ∈ a :: es, h'.alive p = true) : Ok h' W := by
  refine ⟨fun a es e => ?_, ok.apart⟩
  have r := ok.rep a es e
  exact ⟨adjs_frame _ (fun p _ => by rw [hf]) (fun p _ => by rw [hb]) r.ring, r.nodup, ha a es e⟩

theorem ok_sub {h : Heap} {W W' : World} (ok : Ok h W) (s : ∀ a es, W' a = some es → W a = some es) : Ok h W' :=
  ⟨fun a es e => ok.rep a es (s a es e), fun a es b fs e1 e2 => ok.apart a es b fs (s _ _ e1) (s _ _ e2)⟩

theorem world_head (K : List Nat) (O : Nat → List Nat) : world K O 1 = some (K.map (2 * ·)) := by simp [world]

theorem world_key {K : List Nat} {O : Nat → List Nat} {k : Nat} (no0 : 0 ∉ K) (h : k ∈ K) : world K O (2 * k + 1) = some ((O k).map (2 * ·)) := by
  have : k ≠ 0 := fun e => no0 (e ▸ h)
  have e1 : (2 * k + 1) / 2 = k := by omega
  have e2 : (2 * k + 1) % 2 = 1 := by omega
  have e3 : ¬ 2 * k + 1 = 1 := by omega
  simp only [world, e1, e2, h, e3, if_false, and_self, if_true]

theorem world_inv {K : List Nat} {O : Nat → List Nat} {a : Nat} {es : List Nat} (h : world K O a = some es) :
    (a = 1 ∧ es = K.map (2 * ·)) ∨ ∃ k ∈ K, a = 2 * k + 1 ∧ es = (O k).map (2 * ·) := by
  unfold world at h
  split at h
  · cases h; exact .inl ⟨‹_›, rfl⟩
  · split at h
    · rename_i hk
      cases h
      exact .inr ⟨a / 2, hk.2, by omega, rfl⟩
    · cases h

/-- The entries in the lists are those of the blocks. -/
theorem free_of {m : Mem} {K : List Nat} {O : Nat → List Nat} {n : Nat} (r : Rep m K O) (hk : m.key n = none) (ho : m.obj n = none) (h0 : n ≠ 0) :
    DList.Free (world K O) (2 * n) ∧ DList.Free (world K O) (2 * n + 1) := by
  have nk : n ∉ K := fun h => (r.key n).2 h hk
  have no : ∀ k ∈ K, n ∉ O k := fun k hk h => (r.obj n).2 ⟨k, hk, h⟩ ho
  constructor
  · intro a es e hm
    rcases world_inv e with ⟨rfl, rfl⟩ | ⟨k, hk, rfl, rfl⟩
    · simp at hm
      rcases hm with hm | ⟨x, hx, hm⟩
      · omega
      · exact nk ((show x = n by omega) ▸ hx)
    · simp at hm
      rcases hm with hm | ⟨x, hx, hm⟩
      · omega
      · exact no k hk ((show x = n by omega) ▸ hx)
  · intro a es e hm
    rcases world_inv e with ⟨rfl, rfl⟩ | ⟨k, hk, rfl, rfl⟩
    · simp at hm
      rcases hm with hm | ⟨x, _, hm⟩ <;> omega
    · simp at hm
      rcases hm with hm | ⟨x, _, hm⟩
      · have : n = k := by omega
        exact nk (this ▸ hk)
      · omega

section
variable {m : Mem} {K : List Nat} {O : Nat → List Nat}

theorem mem_head {l : List Nat} {n a : Nat} (h : n ∈ l) : 2 * n ∈ a :: l.map (2 * ·) := List.mem_cons_of_mem _ (List.mem_map_of_mem h)

theorem map_inj {l : List Nat} (h : (l.map (2 * ·)).Nodup) : l.Nodup := by
  rw [List.nodup_iff_pairwise_ne, List.pairwise_map] at h
  rw [List.nodup_iff_pairwise_ne]
  exact h.imp fun h e => h (by rw [e])

theorem Rep.nodup (r : Rep m K O) : K.Nodup := map_inj (List.nodup_cons.1 (r.ok.rep _ _ (world_head K O)).nodup).2

theorem Rep.nodupO (r : Rep m K O) {k : Nat} (h : k ∈ K) : (O k).Nodup := map_inj (List.nodup_cons.1 (r.ok.rep _ _ (world_key r.no0 h)).nodup).2

theorem Rep.disj (r : Rep m K O) {k k' n : Nat} (h : k ∈ K) (h' : k' ∈ K) (ne : k ≠ k') (hn : n ∈ O k) : n ∉ O k' := by
  intro hn'
  refine r.ok.apart _ _ _ _ (world_key r.no0 h) (world_key r.no0 h') (by omega) (2 * n) (mem_head hn) (mem_head hn')

theorem Rep.disjK (r : Rep m K O) {k k' : Nat} (h : k ∈ K) (h' : k' ∈ K) : k' ∉ O k := by
  intro hn'
  have : k ≠ 0 := fun e => r.no0 (e ▸ h)
  refine r.ok.apart _ _ _ _ (world_key r.no0 h) (world_head K O) (by omega) (2 * k') (mem_head hn') (mem_head h')

theorem Rep.disj0 (r : Rep m K O) {k n : Nat} (h : k ∈ K) (hn : n ∈ O k) : m.key n = none := by
  cases e : m.key n with
  | none => rfl
  | some x => exact (r.disjK h ((r.key n).1 (by simp [e])) hn).elim

theorem alive_key {k : Nat} (h : m.key k ≠ none) : m.d.alive (2 * k) = true ∧ m.d.alive (2 * k + 1) = true := by
  have e1 : (2 * k + 1) / 2 = k := by omega
  have e2 : 2 * k / 2 = k := by omega
  have : (m.key k).isSome = true := by cases h' : m.key k <;> simp_all
  simp [Mem.d, e1, e2, this]

theorem alive_obj {o : Nat} (h : m.obj o ≠ none) : m.d.alive (2 * o) = true := by
  have e2 : 2 * o / 2 = o := by omega
  have : (m.obj o).isSome = true := by cases h' : m.obj o <;> simp_all
  simp [Mem.d, e2, this]

/-- All entries of the lists can be accessed if the blocks are allocated. -/
theorem all_alive (hk : ∀ n ∈ K, m.key n ≠ none) (ho : ∀ k ∈ K, ∀ n ∈ O k, m.obj n ≠ none) : ∀ a es, world K O a = some es → ∀ p ∈ a :: es, m.d.alive p = true := by
  intro a es e p hp
  rcases world_inv e with ⟨rfl, rfl⟩ | ⟨k, hk', rfl, rfl⟩
  · simp at hp
    rcases hp with rfl | ⟨x, hx, rfl⟩
    · simp [Mem.d]
    · exact (alive_key (hk x hx)).1
  · simp at hp
    rcases hp with rfl | ⟨x, hx, rfl⟩
    · exact (alive_key (hk k hk')).2
    · exact alive_obj (ho k hk' x hx)

end

/-! ### The functions of doublylinkedlist.c -/

theorem init_op {h : Heap} {W : World} {a : Nat} (ok : Ok h W) (ha : h.alive a = true) (hf : DList.Free W a) :
    ∃ h', initializeListHead h a = C.ok h' ∧ Ok h' (W.set a (some [])) ∧ h'.alive = h.alive := by
  obtain ⟨h', e, o, al⟩ := call_outcome ok (.init a ha hf)
  obtain ⟨x, e1, e2⟩ := C.bind_eq_ok.1 e
  cases e2; exact ⟨_, e1, o, al⟩

theorem insert_op {h : Heap} {W : World} {a x : Nat} {es : List Nat} (ok : Ok h W) (hw : W a = some es) (ha : h.alive x = true) (hf : DList.Free W x) :
    ∃ h', insertHeadList h a x = C.ok h' ∧ Ok h' (W.set a (some (x :: es))) ∧ h'.alive = h.alive := by
  obtain ⟨h', e, o, al⟩ := call_outcome ok (.insertHead a x es hw ha hf)
  obtain ⟨x, e1, e2⟩ := C.bind_eq_ok.1 e
  cases e2; exact ⟨_, e1, o, al⟩

theorem remove_op {h : Heap} {W : World} {a x : Nat} {es : List Nat} (ok : Ok h W) (hw : W a = some es) (hx : x ∈ es) :
    ∃ h', removeEntryList h x = C.ok (h', (es.erase x).isEmpty) ∧ Ok h' (W.set a (some (es.erase x))) ∧ h'.alive = h.alive := by
  obtain ⟨h', e, o, al⟩ := call_outcome ok (.removeEntry a x es hw hx)
  obtain ⟨⟨y, z⟩, e1, e2⟩ := C.bind_eq_ok.1 e
  cases e2; exact ⟨_, e1, o, al⟩

theorem removeHead_op {h : Heap} {W : World} {a x : Nat} {es : List Nat} (ok : Ok h W) (hw : W a = some (x :: es)) :
    ∃ h', removeHeadList h a = C.ok (h', x) ∧ Ok h' (W.set a (some es)) ∧ h'.alive = h.alive := by
  obtain ⟨h', e, o, al⟩ := call_outcome ok (.removeHead a x es hw)
  obtain ⟨⟨y, z⟩, e1, e2⟩ := C.bind_eq_ok.1 e
  cases e2; exact ⟨_, e1, o, al⟩

theorem removeHead_empty_op {h : Heap} {W : World} {a : Nat} (ok : Ok h W) (hw : W a = some []) :
    ∃ h', removeHeadList h a = C.ok (h', a) ∧ Ok h' W ∧ h'.alive = h.alive := by
  obtain ⟨h', e, o, al⟩ := call_outcome ok (.removeHeadEmpty a hw)
  obtain ⟨⟨y, z⟩, e1, e2⟩ := C.bind_eq_ok.1 e
  cases e2; exact ⟨_, e1, o, al⟩

/-! ### Searching -/

/-- The outcome of a search, as `DList_ForEach` reports it. -/
def outcome : Found Nat → Bool × Option Nat
  | .fail => (false, none)
  | .none => (true, none)
  | .entry _ x _ => (true, some (2 * x))

theorem loop_find {α : Type} (content : Nat → Option α) (mt : α → Match) (d : α) (h : Heap) (head : Nat) : ∀ (l : List Nat) (before : List Nat) (F : Nat),
    DList.Rep h head (before ++ l.map (2 * ·)) → l.length < F → (∀ n ∈ l, content n ≠ none) →
    ∃ calls, forEachLoop (isSame content mt) h none head ((l.map (2 * ·) ++ [head]).head (by simp)) F =
      C.ok ((h, (outcome (scan (fun n => mt ((content n).getD d)) l)).2), (outcome (scan (fun n => mt ((content n).getD d)) l)).1, calls)
  | [], before, F, r, hF, _ => by
    cases F with
    | zero => simp at hF
    | succ F => exact ⟨[], by simp [forEachLoop, scan, outcome]⟩
  | n :: l, before, F, r, hF, hc => by
    cases F with
    | zero => simp at hF
    | succ F =>
      rw [List.map_cons] at r
      obtain ⟨a', p, x, b', ea, eb, ha, hb, h1, h2, h3, h4⟩ := rep_split r
      have hne : 2 * n ≠ head := by
        have := (nodup_facts r.nodup).2.2.2.1
        exact fun x => this (by simp [x])
      have hn : (l.map (2 * ·) ++ [head]).head (by simp) = x := by simp only [eb, List.head_cons]
      have e2 : 2 * n / 2 = n := by omega
      simp only [List.map_cons, List.cons_append, List.head_cons]
      unfold forEachLoop
      rw [if_neg hne, getF_of (r.alive _ (by simp)), C.ok_bind, h3]
      cases hx : content n with
      | none => exact (hc n (by simp) hx).elim
      | some v =>
        cases hm : mt v with
        | matching =>
          have ei : isSame content mt none h (2 * n) = C.ok (h, some (2 * n), false, some false) := by simp [isSame, e2, hx, hm]
          exact ⟨_, by simp only [ei, scan, hx, Option.getD_some, hm, outcome, C.ok_bind]; rfl⟩
        | error =>
          have ei : isSame content mt none h (2 * n) = C.ok (h, none, true, some false) := by simp [isSame, e2, hx, hm]
          exact ⟨_, by simp only [ei, scan, hx, Option.getD_some, hm, outcome, C.ok_bind]; rfl⟩
        | notMatching =>
          have ei : isSame content mt none h (2 * n) = C.ok (h, none, false, some true) := by simp [isSame, e2, hx, hm]
          rw [ei]
          obtain ⟨calls, ih⟩ := loop_find content mt d h head l (before ++ [2 * n]) F (by simpa using r) (by simpa using hF) (fun k hk => hc k (by simp [hk]))
          rw [hn] at ih
          refine ⟨(2 * n, false, some true) :: calls, ?_⟩
          simp only [C.ok_bind, Bool.false_eq_true, if_false, ih, scan, hx, Option.getD_some, hm]
          cases scan (fun n => mt ((content n).getD d)) l <;> rfl

theorem forEach_find {α : Type} (content : Nat → Option α) (mt : α → Match) (d : α) {h : Heap} {head : Nat} {l : List Nat} {F : Nat}
    (r : DList.Rep h head (l.map (2 * ·))) (hF : l.length < F) (hc : ∀ n ∈ l, content n ≠ none) :
    ∃ calls, forEach F h (some head) (some (isSame content mt)) none =
      C.ok ((h, (outcome (scan (fun n => mt ((content n).getD d)) l)).2), (outcome (scan (fun n => mt ((content n).getD d)) l)).1, calls) := by
  obtain ⟨calls, e⟩ := loop_find content mt d h head l [] F (by simpa using r) hF hc
  refine ⟨calls, ?_⟩
  obtain ⟨n, b', eb⟩ := cons_of (l.map (2 * ·)) head
  have hr := r.ring
  rw [eb] at hr
  have hf := hr.1
  simp only [forEach, getF_of (r.alive head (by simp)), C.ok_bind, hf]
  rw [← e]
  simp only [eb, List.head_cons]

def mapFound {α β : Type} (g : α → β) : Found α → Found β
  | .fail => .fail
  | .none => .none
  | .entry b x a => .entry (b.map g) (g x) (a.map g)

/-- A search in a list of structures is a search in the list of what they hold. -/
theorem scan_map {α β : Type} (g : α → β) (mt : β → Match) : ∀ l : List α, scan mt (l.map g) = mapFound g (scan (fun x => mt (g x)) l)
  | [] => rfl
  | x :: l => by
    simp only [List.map_cons, scan, scan_map g mt l]
    cases mt (g x) with
    | matching => rfl
    | error => rfl
    | notMatching => cases scan (fun x => mt (g x)) l <;> rfl

theorem scan_entry {α : Type} {mt : α → Match} : ∀ {l b a : List α} {x : α}, scan mt l = .entry b x a → l = b ++ x :: a ∧ mt x = .matching
  | [], _, _, _, h => by cases h
  | y :: l, b, a, x, h => by
    simp only [scan] at h
    cases hm : mt y with
    | matching => simp [hm] at h; obtain ⟨rfl, rfl, rfl⟩ := h; exact ⟨rfl, hm⟩
    | error => simp [hm] at h
    | notMatching =>
      cases hs : scan mt l with
      | fail => simp [hm, hs] at h
      | none => simp [hm, hs] at h
      | entry b' y' a' =>
        simp only [hm, hs] at h
        cases h
        obtain ⟨e1, e2⟩ := scan_entry hs
        exact ⟨by rw [e1]; rfl, e2⟩

end CUtil.TrackerHeap
