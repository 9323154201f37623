import Verif.TrackerHeap.Lemmas
/-
C76: the lifetime tracker on the heap.
-/
namespace CUtil.TrackerHeap
open CUtil CUtil.DList
open CUtil.Tracker (Match Obj Res URes ARes Key T scan Found)
open CUtil.Conc (upd upd_apply)

/-! ### Specification -/

/-- What malloc may give: not the tracker and no block that is allocated. -/
def Fresh (m : Mem) (p : Nat) : Prop := p ≠ 0 ∧ m.key p = none ∧ m.obj p = none

/-- A call on a tracker. -/
inductive Call
  | register (key : Nat) (o : Obj)
  | unregister (key object : Nat)
  | destroyAll (key : Nat)
  | act (key object : Nat) (action : Option (Nat → Bool))

/-- What it answers; for `destroyAll` the objects destroyed, for `act` also the object acted on. -/
inductive Ans
  | register (r : Res)
  | unregister (r : URes)
  | destroyed (calls : List Obj)
  | act (r : ARes) (o : Option Nat)

/-- The call on the heap; `al` is what the two mallocs give. -/
def exec (F : Nat) (km om : Nat → Nat → Match) (al : Option Nat × Option Nat) (m : Mem) : Call → C (Mem × Ans)
  | .register key o => do let (m, r) ← register F al.1 al.2 km om m key o; pure (m, .register r)
  | .unregister key object => do let (m, r) ← unregister F km om m key object; pure (m, .unregister r)
  | .destroyAll key => do let (m, l) ← destroyAll F km m key; pure (m, .destroyed l)
  | .act key object action => do let (r, o) ← act F km om m key object action; pure (m, .act r o)

/-- The call on lists (Verif/Tracker); `al1`, `al2`: do the allocations succeed. -/
def execT (km om : Nat → Nat → Match) (al1 al2 : Bool) (t : Option T) : Call → C (Option T × Ans)
  | .register key o => do let (t, r) ← Tracker.register al1 al2 km om t key o; pure (t, .register r)
  | .unregister key object => do let (t, r) ← Tracker.unregister km om t key object; pure (t, .unregister r)
  | .destroyAll key => do let (t, l) ← Tracker.destroyAll km t key; pure (t, .destroyed l)
  | .act key object action => do let (t, r, o) ← Tracker.act km om t key object action; pure (t, .act r o)

/-- Calls one after the other; in the call number `i` the allocations succeed as `B i` says, and `A i m` are the blocks malloc has to give when the memory is `m`. -/
def run (F : Nat) (km om : Nat → Nat → Match) (A : Nat → Mem → Nat × Nat) (B : Nat → Bool × Bool) : Nat → Mem → List Call → C (Mem × List Ans)
  | _, m, [] => C.ok (m, [])
  | i, m, c :: cs => do
    let (m', a) ← exec F km om (if (B i).1 then some (A i m).1 else none, if (B i).2 then some (A i m).2 else none) m c
    let (m', as) ← run F km om A B (i + 1) m' cs
    pure (m', a :: as)

/-- ... and on lists; `B i` says whether the allocations succeed. -/
def runT (km om : Nat → Nat → Match) (B : Nat → Bool × Bool) : Nat → Option T → List Call → C (Option T × List Ans)
  | _, t, [] => C.ok (t, [])
  | i, t, c :: cs => do
    let (t', a) ← execT km om (B i).1 (B i).2 t c
    let (t', as) ← runT km om B (i + 1) t' cs
    pure (t', a :: as)

/-- A malloc: as long as finitely many blocks are allocated, it has blocks that are not allocated, two of them. -/
def Malloc (A : Nat → Mem → Nat × Nat) : Prop :=
  ∀ i m, (∃ N, ∀ n ≥ N, m.key n = none ∧ m.obj n = none) → Fresh m (A i m).1 ∧ Fresh m (A i m).2 ∧ (A i m).1 ≠ (A i m).2

/-- The memory of a tracker just created: object_lifetime_tracker.c:166; nothing but the tracker is allocated. -/
def created : Mem := ⟨fun _ => 1, fun _ => 1, fun _ => none, fun _ => none⟩

/-! ### Steps -/

section
variable {m : Mem} {K : List Nat} {O : Nat → List Nat}

theorem rep_of {m' : Mem} {K' : List Nat} {O' : Nat → List Nat} {h : Heap} {W : World} (ok : Ok h W) (hf : m'.f = h.f) (hb : m'.b = h.b)
    (sub : ∀ a es, world K' O' a = some es → W a = some es) (key : ∀ n, m'.key n ≠ none ↔ n ∈ K') (obj : ∀ n, m'.obj n ≠ none ↔ ∃ k ∈ K', n ∈ O' k) (no0 : 0 ∉ K') : Rep m' K' O' :=
  ⟨ok_mono (ok_sub ok sub) hf hb (all_alive (fun n hn => (key n).2 hn) (fun k hk n hn => (obj n).2 ⟨k, hk, hn⟩)), key, obj, no0⟩

theorem findKey_spec (r : Rep m K O) {F : Nat} (hF : K.length < F) (km : Nat → Nat → Match) (key : Nat) :
    findKey F km m key = C.ok (outcome (scan (fun n => km ((m.key n).getD 0) key) K)) := by
  obtain ⟨calls, e⟩ := forEach_find m.key (fun k => km k key) 0 (r.ok.rep _ _ (world_head K O)) hF (fun n hn => (r.key n).2 hn)
  simp only [findKey, e, C.ok_bind]
  rfl

theorem findObj_spec (r : Rep m K O) {F k : Nat} (hk : k ∈ K) (hF : (O k).length < F) (om : Nat → Nat → Match) (object : Nat) :
    findObj F om m k object = C.ok (outcome (scan (fun n => om ((m.obj n).getD ⟨0, 0, 0⟩).object object) (O k))) := by
  obtain ⟨calls, e⟩ := forEach_find m.obj (fun o => om o.object object) ⟨0, 0, 0⟩ (r.ok.rep _ _ (world_key r.no0 hk)) hF (fun n hn => (r.obj n).2 ⟨k, hk, hn⟩)
  simp only [findObj, e, C.ok_bind]
  rfl

theorem erase_map (k : Nat) : ∀ l : List Nat, (l.map (2 * ·)).erase (2 * k) = (l.erase k).map (2 * ·)
  | [] => rfl
  | x :: l => by
    by_cases h : x = k
    · subst h; simp
    · have : ¬ 2 * x = 2 * k := by omega
      simp [List.erase_cons, h, this, erase_map k l]

/-- A new key. -/
theorem add_key (r : Rep m K O) {p : Nat} (fp : Fresh m p) (key : Nat) :
    ∃ m', keyFor (some p) m key none = C.ok (m', some p) ∧ Rep m' (p :: K) (upd O p []) ∧ m'.key = upd m.key p (some key) ∧ m'.obj = m.obj := by
  obtain ⟨p0, pk, po⟩ := fp
  have np : p ∉ K := fun h => (r.key p).2 h pk
  obtain ⟨f1, f2⟩ := free_of r pk po p0
  have ok1 : Ok { m with key := upd m.key p (some key) }.d (world K O) :=
    ok_mono r.ok rfl rfl (all_alive (fun n hn => by dsimp only; rw [upd_apply]; split <;> simp [(r.key n).2 hn]) (fun k hk n hn => (r.obj n).2 ⟨k, hk, hn⟩))
  have al := alive_key (m := { m with key := upd m.key p (some key) }) (k := p) (by simp [upd_apply])
  obtain ⟨h1, e1, o1, a1⟩ := init_op ok1 al.2 f2
  have hw : ((world K O).set (2 * p + 1) (some [])) 1 = some (K.map (2 * ·)) := by
    have : ¬ 1 = 2 * p + 1 := by omega
    simp only [World.set, this, if_false, world_head]
  have f1' : DList.Free ((world K O).set (2 * p + 1) (some [])) (2 * p) := by
    intro a es e
    by_cases h : a = 2 * p + 1
    · subst h
      simp [World.set] at e
      subst e
      simp
    · simp only [World.set, h, if_false] at e
      exact f1 a es e
  have d1 : (Mem.withD { m with key := upd m.key p (some key) } h1).d = h1 := withD_d a1
  obtain ⟨h2, e2, o2, a2⟩ := insert_op (h := h1) o1 hw (by rw [a1]; exact al.1) f1'
  refine ⟨(Mem.withD { m with key := upd m.key p (some key) } h1).withD h2, by simp only [keyFor, e1, C.ok_bind, d1, e2], ?_, rfl, rfl⟩
  refine rep_of o2 rfl rfl ?_ ?_ ?_ ?_
  · intro a es e
    rcases world_inv e with ⟨rfl, rfl⟩ | ⟨k, hk, rfl, rfl⟩
    · simp [World.set]
    · rcases List.mem_cons.1 hk with rfl | hk
      · have : ¬ 2 * k + 1 = 1 := by omega
        simp only [World.set, this, if_false, if_true, upd_apply, List.map_nil]
      · have ne : k ≠ p := fun h => np (h ▸ hk)
        have n1 : ¬ 2 * k + 1 = 1 := by have : k ≠ 0 := fun h => r.no0 (h ▸ hk); omega
        have n2 : ¬ 2 * k + 1 = 2 * p + 1 := by omega
        simp only [World.set, n1, n2, if_false, upd_apply, ne, world_key r.no0 hk]
  · intro n
    have := r.key n
    simp only [Mem.withD, upd_apply, List.mem_cons]
    split <;> simp_all
  · intro n
    simp only [Mem.withD]
    rw [r.obj n]
    constructor
    · rintro ⟨k, hk, hn⟩
      exact ⟨k, by simp [hk], by have : k ≠ p := fun h => np (h ▸ hk); simpa [upd_apply, this] using hn⟩
    · rintro ⟨k, hk, hn⟩
      by_cases h : k = p
      · simp [upd_apply, h] at hn
      · exact ⟨k, by simpa [h] using hk, by simpa [upd_apply, h] using hn⟩
  · simp [r.no0, Ne.symm p0]

/-- A new object of the key `k`. -/
theorem add_obj (r : Rep m K O) {k q : Nat} (hk : k ∈ K) (fq : Fresh m q) (o : Obj) :
    ∃ h, insertHeadList { m with obj := upd m.obj q (some o) }.d (2 * k + 1) (2 * q) = C.ok h ∧
      Rep (Mem.withD { m with obj := upd m.obj q (some o) } h) K (upd O k (q :: O k)) := by
  obtain ⟨q0, qk, qo⟩ := fq
  obtain ⟨f1, _⟩ := free_of r qk qo q0
  have ok1 : Ok { m with obj := upd m.obj q (some o) }.d (world K O) :=
    ok_mono r.ok rfl rfl (all_alive (fun n hn => (r.key n).2 hn) (fun k hk n hn => by dsimp only; rw [upd_apply]; split <;> simp [(r.obj n).2 ⟨k, hk, hn⟩]))
  obtain ⟨h, e, o2, a⟩ := insert_op ok1 (world_key r.no0 hk) (alive_obj (m := { m with obj := upd m.obj q (some o) }) (by simp [upd_apply])) f1
  refine ⟨h, e, rep_of o2 rfl rfl ?_ r.key ?_ r.no0⟩
  · intro a es e
    rcases world_inv e with ⟨rfl, rfl⟩ | ⟨k', hk', rfl, rfl⟩
    · have : ¬ 1 = 2 * k + 1 := by have : k ≠ 0 := fun h => r.no0 (h ▸ hk); omega
      simp only [World.set, this, if_false, world_head]
    · by_cases h : k' = k
      · subst h; simp [World.set, upd_apply]
      · have : ¬ 2 * k' + 1 = 2 * k + 1 := by omega
        simp only [World.set, this, if_false, upd_apply, h, world_key r.no0 hk']
  · intro n
    have := r.obj n
    simp only [Mem.withD, upd_apply]
    constructor
    · intro h
      by_cases e : n = q
      · exact ⟨k, hk, by simp [e]⟩
      · rw [if_neg e] at h
        obtain ⟨k', hk', hn⟩ := this.1 h
        exact ⟨k', hk', by split <;> simp_all⟩
    · rintro ⟨k', hk', hn⟩
      by_cases e : n = q
      · simp [e]
      · rw [if_neg e]
        refine this.2 ?_
        split at hn
        · rename_i h; simp [e] at hn; exact ⟨k, hk, hn⟩
        · exact ⟨k', hk', hn⟩

/-- A key without objects is taken out and freed. -/
theorem del_key (r : Rep m K O) {k : Nat} {h : Heap} (hk : k ∈ K) (he : O k = []) (ok : Ok h ((world K O).set 1 (some ((K.map (2 * ·)).erase (2 * k))))) :
    ∃ m', freeKey (m.withD h) k = C.ok m' ∧ Rep m' (K.erase k) O ∧ m'.key = upd m.key k none ∧ m'.obj = m.obj := by
  have nk := (r.key k).2 hk
  refine ⟨{ m.withD h with key := upd m.key k none }, by simp [freeKey, Mem.withD, nk], ?_, rfl, rfl⟩
  have mem : ∀ n, n ∈ K.erase k ↔ n ∈ K ∧ n ≠ k := fun n => by rw [r.nodup.mem_erase_iff]; exact ⟨fun ⟨a, b⟩ => ⟨b, a⟩, fun ⟨a, b⟩ => ⟨b, a⟩⟩
  refine rep_of ok rfl rfl ?_ ?_ ?_ ?_
  · intro a es e
    rcases world_inv e with ⟨rfl, rfl⟩ | ⟨k', hk', rfl, rfl⟩
    · simp [World.set, erase_map]
    · have hk'' := ((mem k').1 hk').1
      have n1 : ¬ 2 * k' + 1 = 1 := by have : k' ≠ 0 := fun h => r.no0 (h ▸ hk''); omega
      simp only [World.set, n1, if_false, world_key r.no0 hk'']
  · intro n
    have := r.key n
    rw [mem]
    simp only [Mem.withD, upd_apply]
    split <;> simp_all
  · intro n
    simp only [Mem.withD]
    rw [r.obj n]
    constructor
    · rintro ⟨k', hk', hn⟩
      exact ⟨k', (mem k').2 ⟨hk', fun h => by rw [h, he] at hn; simp at hn⟩, hn⟩
    · rintro ⟨k', hk', hn⟩
      exact ⟨k', ((mem k').1 hk').1, hn⟩
  · intro h; exact r.no0 ((mem 0).1 h).1

/-- An object is taken out and freed. -/
theorem del_obj (r : Rep m K O) {k o : Nat} {h : Heap} (hk : k ∈ K) (ho : o ∈ O k) (ok : Ok h ((world K O).set (2 * k + 1) (some (((O k).map (2 * ·)).erase (2 * o))))) :
    ∃ m', freeObj (m.withD h) o = C.ok m' ∧ Rep m' K (upd O k ((O k).erase o)) ∧ m'.key = m.key ∧ m'.obj = upd m.obj o none := by
  have no := (r.obj o).2 ⟨k, hk, ho⟩
  refine ⟨{ m.withD h with obj := upd m.obj o none }, by simp [freeObj, Mem.withD, no], ?_, rfl, rfl⟩
  refine rep_of ok rfl rfl ?_ r.key ?_ r.no0
  · intro a es e
    rcases world_inv e with ⟨rfl, rfl⟩ | ⟨k', hk', rfl, rfl⟩
    · have : ¬ 1 = 2 * k + 1 := by have : k ≠ 0 := fun h => r.no0 (h ▸ hk); omega
      simp only [World.set, this, if_false, world_head]
    · by_cases h : k' = k
      · subst h; simp [World.set, upd_apply, erase_map]
      · have : ¬ 2 * k' + 1 = 2 * k + 1 := by omega
        simp only [World.set, this, if_false, upd_apply, h, world_key r.no0 hk']
  · intro n
    have := r.obj n
    simp only [Mem.withD, upd_apply]
    constructor
    · intro h
      by_cases e : n = o
      · rw [if_pos e] at h; exact (h rfl).elim
      · rw [if_neg e] at h
        obtain ⟨k', hk', hn⟩ := this.1 h
        refine ⟨k', hk', ?_⟩
        split
        · rename_i h; subst h; exact (List.mem_erase_of_ne e).2 hn
        · exact hn
    · rintro ⟨k', hk', hn⟩
      split at hn
      · rename_i h
        subst h
        have := (r.nodupO hk).mem_erase_iff.1 hn
        rw [if_neg this.1]
        exact (r.obj n).2 ⟨k', hk, this.2⟩
      · rename_i h
        have e : n ≠ o := fun e => r.disj hk hk' (Ne.symm h) ho (e ▸ hn)
        rw [if_neg e]
        exact this.2 ⟨k', hk', hn⟩

/-! ### What the lists of Verif/Tracker look like after a step -/

theorem keyAt_congr {m' : Mem} {O' : Nat → List Nat} {n : Nat} (h1 : m'.key n = m.key n) (h2 : O' n = O n) (h3 : ∀ o ∈ O n, m'.obj o = m.obj o) : keyAt m' O' n = keyAt m O n := by
  simp only [keyAt, h1, h2, Key.mk.injEq, true_and]
  exact List.map_congr_left fun o ho => by rw [h3 o ho]

theorem total_cons (k : Nat) : total (k :: K) O = total K O + (O k).length + 1 := by simp [total]; omega

theorem total_congr {O' : Nat → List Nat} : ∀ {K : List Nat}, (∀ n ∈ K, (O' n).length = (O n).length) → total K O' = total K O
  | [], _ => rfl
  | k :: K, h => by rw [total_cons, total_cons, h k (by simp), total_congr fun n hn => h n (by simp [hn])]

theorem total_append (a b : List Nat) : total (a ++ b) O = total a O + total b O := by simp [total]; omega

theorem len_le_total : K.length ≤ total K O := by simp [total]

theorem objs_le_total {k : Nat} : ∀ {K : List Nat}, k ∈ K → (O k).length ≤ total K O
  | [], h => by simp at h
  | x :: K, h => by
    rw [total_cons]
    rcases List.mem_cons.1 h with rfl | h
    · omega
    · have := objs_le_total h; omega

/-! ### The functions -/

theorem abs_congr {m' : Mem} {K' : List Nat} {O' : Nat → List Nat} (hk : K'.map (keyAt m' O') = K.map (keyAt m O)) (ht : total K' O' = total K O) : abs m' K' O' = abs m K O := by
  simp [abs, hk, ht]

/-- Registering. -/
theorem register_refines (r : Rep m K O) {F : Nat} (hF : total K O < F) (km om : Nat → Nat → Match) {pk po : Option Nat} (hk : ∀ p, pk = some p → Fresh m p) (ho : ∀ q, po = some q → Fresh m q)
    (hne : ∀ p, pk = some p → po ≠ some p) (key : Nat) (o : Obj) :
    ∃ m' K' O' res, register F pk po km om m key o = C.ok (m', res) ∧ Rep m' K' O' ∧
      Tracker.register pk.isSome po.isSome km om (some (abs m K O)) key o = C.ok (some (abs m' K' O'), res) ∧ total K' O' ≤ total K O + 2 := by
  unfold register Tracker.register
  dsimp only
  by_cases hz : o.object = 0 ∨ o.destroy = 0
  · rw [if_pos hz, if_pos hz]
    exact ⟨m, K, O, _, rfl, r, rfl, by omega⟩
  rw [if_neg hz, if_neg hz, findKey_spec r (Nat.lt_of_le_of_lt len_le_total hF)]
  have hs' := scan_map (keyAt m O) (fun k => km k.key key) K
  change _ = mapFound _ (scan (fun n => km ((m.key n).getD 0) key) K) at hs'
  simp only [Tracker.acquire, Tracker.release, abs, Bool.false_eq_true, if_false, C.ok_bind, hs']
  cases hs : scan (fun n => km ((m.key n).getD 0) key) K with
  | fail => exact ⟨m, K, O, .error, by simp [outcome], r, by simp [mapFound], by omega⟩
  | none =>
    simp only [outcome, mapFound, Bool.true_eq_false, if_false]
    cases pk with
    | none => exact ⟨m, K, O, .error, by simp [keyFor], r, by simp, by omega⟩
    | some p =>
      have fp := hk p rfl
      have np : p ∉ K := fun h => (r.key p).2 h fp.2.1
      obtain ⟨m1, e1, r1, k1, o1⟩ := add_key r fp key
      have hO : upd O p [] p = [] := by simp [upd_apply]
      have tot : total K (upd O p []) = total K O := total_congr fun n hn => by have : n ≠ p := fun h => np (h ▸ hn); simp [upd_apply, this]
      have old : ∀ n ∈ K, upd O p [] n = O n := fun n hn => by have : n ≠ p := fun h => np (h ▸ hn); simp [upd_apply, this]
      have hfo : findObj F om m1 p o.object = C.ok (true, none) := by
        rw [findObj_spec (F := F) (k := p) r1 (by simp) (by rw [hO, List.length_nil]; omega), hO]; rfl
      simp only [e1, C.ok_bind, insertObject, hfo, scan, Tracker.insertObject]
      cases po with
      | none =>
        obtain ⟨h, e2, o2, a2⟩ := removeHead_op r1.ok (world_head _ _)
        obtain ⟨m2, e3, r2, k2, o2'⟩ := del_key (k := p) r1 (by simp) hO (by simpa using o2)
        rw [List.erase_cons_head] at r2
        have ek : K.map (keyAt m2 (upd O p [])) = K.map (keyAt m O) := List.map_congr_left fun n hn =>
          keyAt_congr (by have : n ≠ p := fun h => np (h ▸ hn); simp [k2, k1, upd_apply, this]) (old n hn) (fun o _ => by rw [o2', o1])
        refine ⟨m2, K, _, .error, by simp [e2, e3], r2, ?_, by rw [tot]; omega⟩
        simp [Tracker.cleanup, Tracker.freeBlock, ek, tot]
      | some q =>
        have fq : Fresh m1 q := by
          have := ho q rfl
          have n1 : q ≠ p := fun h => hne p rfl (by rw [h])
          exact ⟨this.1, by rw [k1, upd_apply, if_neg n1]; exact this.2.1, by rw [o1]; exact this.2.2⟩
        obtain ⟨h, e2, r2⟩ := add_obj r1 (List.mem_cons_self ..) fq o
        have e3 : upd (upd O p []) p (q :: upd O p [] p) = upd O p [q] := by
          funext n; simp only [upd_apply]; split <;> simp
        rw [e3] at r2
        have qo : m.obj q = none := (ho q rfl).2.2
        have tot2 : total (p :: K) (upd O p [q]) = total K O + 2 := by
          rw [total_cons, total_congr (O := O) fun n hn => by have : n ≠ p := fun h => np (h ▸ hn); simp [upd_apply, this]]
          simp [upd_apply]
        have ek : (p :: K).map (keyAt (Mem.withD { m1 with obj := upd m1.obj q (some o) } h) (upd O p [q])) = ⟨key, [o]⟩ :: K.map (keyAt m O) := by
          rw [List.map_cons]
          congr 1
          · simp [keyAt, Mem.withD, k1, upd_apply]
          · refine List.map_congr_left fun n hn => ?_
            have : n ≠ p := fun h => np (h ▸ hn)
            refine keyAt_congr (by simp [Mem.withD, k1, upd_apply, this]) (by simp [upd_apply, this]) fun x hx => ?_
            have : x ≠ q := fun h => (r.obj x).2 ⟨n, hn, hx⟩ (h ▸ qo)
            simp [Mem.withD, o1, upd_apply, this]
        refine ⟨_, _, _, .newKey, by simp [e2], r2, ?_, by rw [tot2]; omega⟩
        simp [Tracker.cleanup, ek, tot2]
  | entry b k a =>
    obtain ⟨eK, _⟩ := scan_entry hs
    have hkK : k ∈ K := by rw [eK]; simp
    have nd := r.nodup
    have e2 : 2 * k / 2 = k := by omega
    simp only [outcome, mapFound, Bool.true_eq_false, if_false, keyFor, e2, C.ok_bind, insertObject, findObj_spec r hkK (Nat.lt_of_le_of_lt (objs_le_total hkK) hF), Tracker.insertObject]
    have hso := scan_map (fun n => (m.obj n).getD ⟨0, 0, 0⟩) (fun x => om x.object o.object) (O k)
    change scan (fun x => om x.object o.object) (keyAt m O k).objs = _ at hso
    rw [hso]
    cases hs2 : scan (fun n => om ((m.obj n).getD ⟨0, 0, 0⟩).object o.object) (O k) with
    | fail => exact ⟨m, K, O, .error, by simp [outcome], r, by simp [mapFound, Tracker.cleanup], by omega⟩
    | entry b2 x a2 => exact ⟨m, K, O, .exists, by simp [outcome], r, by simp [mapFound, Tracker.cleanup], by omega⟩
    | none =>
      cases po with
      | none => exact ⟨m, K, O, .error, by simp [outcome], r, by simp [mapFound, Tracker.cleanup], by omega⟩
      | some q =>
        obtain ⟨h, e3, r2⟩ := add_obj r hkK (ho q rfl) o
        have qo : m.obj q = none := (ho q rfl).2.2
        have nq : ∀ n ∈ K, ∀ x ∈ O n, x ≠ q := fun n hn x hx h => (r.obj x).2 ⟨n, hn, hx⟩ (h ▸ qo)
        rw [eK] at nd
        have nb : ∀ n ∈ b, n ≠ k := fun n hn h => by rw [List.nodup_append] at nd; exact nd.2.2 n hn k (by simp) h
        have na : ∀ n ∈ a, n ≠ k := fun n hn h => by rw [List.nodup_append] at nd; exact (List.nodup_cons.1 nd.2.1).1 (h ▸ hn)
        have same : ∀ n ∈ K, n ≠ k → keyAt (Mem.withD { m with obj := upd m.obj q (some o) } h) (upd O k (q :: O k)) n = keyAt m O n := fun n hn ne =>
          keyAt_congr rfl (by simp [upd_apply, ne]) fun x hx => by simp [Mem.withD, upd_apply, nq n hn x hx]
        have ek : K.map (keyAt (Mem.withD { m with obj := upd m.obj q (some o) } h) (upd O k (q :: O k))) =
            b.map (keyAt m O) ++ { keyAt m O k with objs := o :: (keyAt m O k).objs } :: a.map (keyAt m O) := by
          conv => lhs; rw [eK]
          rw [List.map_append, List.map_cons]
          congr 1
          · exact List.map_congr_left fun n hn => same n (by rw [eK]; simp [hn]) (nb n hn)
          congr 1
          · simp only [keyAt, Mem.withD, upd_apply, if_true, List.map_cons, Option.getD_some, Key.mk.injEq, List.cons.injEq, true_and]
            exact List.map_congr_left fun x hx => by rw [if_neg (nq k hkK x hx)]
          · exact List.map_congr_left fun n hn => same n (by rw [eK]; simp [hn]) (na n hn)
        have tot : total K (upd O k (q :: O k)) = total K O + 1 := by
          rw [eK, total_append, total_append, total_cons, total_cons, total_congr (O := O) (K := b) fun n hn => by simp [upd_apply, nb n hn],
            total_congr (O := O) (K := a) fun n hn => by simp [upd_apply, na n hn]]
          simp [upd_apply]; omega
        refine ⟨_, _, _, .newObject, by simp [outcome, e3], r2, ?_, by rw [tot]; omega⟩
        simp [mapFound, Tracker.cleanup, ek, tot]

theorem erase_mid {b a : List Nat} {x : Nat} (h : (b ++ x :: a).Nodup) : (b ++ x :: a).erase x = b ++ a := by
  rw [List.nodup_append] at h
  rw [List.erase_append_right _ (fun hx => h.2.2 x hx x (by simp) rfl), List.erase_cons_head]

theorem mid_ne {b a : List Nat} {x : Nat} (h : (b ++ x :: a).Nodup) : (∀ n ∈ b, n ≠ x) ∧ ∀ n ∈ a, n ≠ x := by
  rw [List.nodup_append] at h
  exact ⟨fun n hn e => h.2.2 n hn x (by simp) e, fun n hn e => (List.nodup_cons.1 h.2.1).1 (e ▸ hn)⟩

/-- Changing the objects of one key. -/
theorem one_key {m' : Mem} {b a : List Nat} {k : Nat} {l : List Nat} (r : Rep m (b ++ k :: a) O) (hk : m'.key = m.key) (ho : ∀ n ∈ b ++ k :: a, n ≠ k → ∀ x ∈ O n, m'.obj x = m.obj x) :
    (b.map (keyAt m' (upd O k l)) = b.map (keyAt m O)) ∧ (a.map (keyAt m' (upd O k l)) = a.map (keyAt m O)) ∧
    total (b ++ k :: a) (upd O k l) + (O k).length = total (b ++ k :: a) O + l.length := by
  obtain ⟨nb, na⟩ := mid_ne r.nodup
  refine ⟨List.map_congr_left fun n hn => ?_, List.map_congr_left fun n hn => ?_, ?_⟩
  · exact keyAt_congr (by rw [hk]) (by simp [upd_apply, nb n hn]) (ho n (by simp [hn]) (nb n hn))
  · exact keyAt_congr (by rw [hk]) (by simp [upd_apply, na n hn]) (ho n (by simp [hn]) (na n hn))
  · rw [total_append, total_append, total_cons, total_cons, total_congr (O := O) (K := b) fun n hn => by simp [upd_apply, nb n hn],
      total_congr (O := O) (K := a) fun n hn => by simp [upd_apply, na n hn]]
    simp [upd_apply]; omega

/-- The key `k`, without objects, is taken out of the list and freed. -/
theorem drop_key {b a : List Nat} {k : Nat} (r : Rep m (b ++ k :: a) O) (he : O k = []) :
    ∃ h x m', removeEntryList m.d (2 * k) = C.ok (h, x) ∧ freeKey (m.withD h) k = C.ok m' ∧ Rep m' (b ++ a) O ∧ (b ++ a).map (keyAt m' O) = b.map (keyAt m O) ++ a.map (keyAt m O) ∧
      total (b ++ a) O + 1 = total (b ++ k :: a) O := by
  obtain ⟨h, e, ok, al⟩ := remove_op r.ok (world_head _ _) (x := 2 * k) (List.mem_map_of_mem (by simp))
  obtain ⟨m', e2, r2, k2, o2⟩ := del_key (k := k) r (by simp) he ok
  rw [erase_mid r.nodup] at r2
  obtain ⟨nb, na⟩ := mid_ne r.nodup
  refine ⟨h, _, m', e, e2, r2, ?_, by rw [total_append, total_append, total_cons, he]; simp; omega⟩
  rw [List.map_append]
  congr 1
  · exact List.map_congr_left fun n hn => keyAt_congr (by simp [k2, upd_apply, nb n hn]) rfl (fun x _ => by rw [o2])
  · exact List.map_congr_left fun n hn => keyAt_congr (by simp [k2, upd_apply, na n hn]) rfl (fun x _ => by rw [o2])

/-- Unregistering. -/
theorem unregister_refines (r : Rep m K O) {F : Nat} (hF : total K O < F) (km om : Nat → Nat → Match) (key object : Nat) :
    ∃ m' K' O' res, unregister F km om m key object = C.ok (m', res) ∧ Rep m' K' O' ∧
      Tracker.unregister km om (some (abs m K O)) key object = C.ok (some (abs m' K' O'), res) ∧ total K' O' ≤ total K O + 2 := by
  unfold unregister Tracker.unregister
  dsimp only
  by_cases hz : object = 0
  · rw [if_pos hz, if_pos hz]
    exact ⟨m, K, O, _, rfl, r, rfl, by omega⟩
  rw [if_neg hz, if_neg hz, findKey_spec r (Nat.lt_of_le_of_lt len_le_total hF)]
  have hs' := scan_map (keyAt m O) (fun k => km k.key key) K
  change _ = mapFound _ (scan (fun n => km ((m.key n).getD 0) key) K) at hs'
  simp only [Tracker.acquire, Tracker.release, abs, Bool.false_eq_true, if_false, C.ok_bind, hs']
  cases hs : scan (fun n => km ((m.key n).getD 0) key) K with
  | fail => exact ⟨m, K, O, .error, by simp [outcome], r, by simp [mapFound], by omega⟩
  | none => exact ⟨m, K, O, .keyNotFound, by simp [outcome], r, by simp [mapFound], by omega⟩
  | entry b k a =>
    obtain ⟨rfl, _⟩ := scan_entry hs
    have hkK : k ∈ b ++ k :: a := by simp
    have e2 : 2 * k / 2 = k := by omega
    have hfo := findObj_spec r hkK (Nat.lt_of_le_of_lt (objs_le_total hkK) hF) om object
    have hso := scan_map (fun n => (m.obj n).getD ⟨0, 0, 0⟩) (fun x => om x.object object) (O k)
    change scan (fun x => om x.object object) (keyAt m O k).objs = _ at hso
    simp only [outcome, mapFound, Bool.true_eq_false, if_false, e2, C.ok_bind, hfo, hso]
    cases hs2 : scan (fun n => om ((m.obj n).getD ⟨0, 0, 0⟩).object object) (O k) with
    | fail => exact ⟨m, _, O, .error, by simp, r, by simp, by omega⟩
    | none => exact ⟨m, _, O, .notFound, by simp, r, by simp, by omega⟩
    | entry ob x oa =>
      obtain ⟨eO, _⟩ := scan_entry hs2
      have hx : x ∈ O k := by rw [eO]; simp
      have ex : 2 * x / 2 = x := by omega
      have ndO := r.nodupO hkK
      obtain ⟨h, e3, ok, al⟩ := remove_op r.ok (world_key r.no0 hkK) (x := 2 * x) (List.mem_map_of_mem hx)
      obtain ⟨m1, e4, r1, k1, o1⟩ := del_obj r hkK hx ok
      have er : (O k).erase x = ob ++ oa := by rw [eO]; rw [eO] at ndO; exact erase_mid ndO
      rw [er] at r1
      rw [erase_map, er] at e3
      obtain ⟨kb, ka, kt⟩ := one_key (m' := m1) (l := ob ++ oa) r k1 fun n hn ne y hy => by
        have : y ≠ x := fun h => r.disj hkK hn (Ne.symm ne) hx (h ▸ hy)
        simp [o1, upd_apply, this]
      have lenO : (O k).length = (ob ++ oa).length + 1 := by rw [eO]; simp; omega
      have tpos : total (b ++ k :: a) O ≠ 0 := by have := objs_le_total (O := O) hkK; omega
      have tot1 : total (b ++ k :: a) (upd O k (ob ++ oa)) = total (b ++ k :: a) O - 1 := by omega
      have kk : keyAt m1 (upd O k (ob ++ oa)) k = { keyAt m O k with objs := ob.map (fun n => (m.obj n).getD ⟨0, 0, 0⟩) ++ oa.map (fun n => (m.obj n).getD ⟨0, 0, 0⟩) } := by
        simp only [keyAt, k1, o1, upd_apply, if_true, Key.mk.injEq, true_and, ← List.map_append]
        refine List.map_congr_left fun y hy => ?_
        have : y ≠ x := by
          have h := mid_ne (eO ▸ ndO)
          rcases List.mem_append.1 hy with hy | hy
          · exact h.1 y hy
          · exact h.2 y hy
        rw [if_neg this]
      simp only [removeObject, e3, C.ok_bind, ex, e4, Tracker.removeObject, Tracker.freeBlock, tpos, if_false, mapFound]
      by_cases hem : ob ++ oa = []
      · obtain ⟨h2, y, m2, e5, e6, r2, ek, et⟩ := drop_key r1 (by simp [upd_apply, hem])
        have tpos2 : total (b ++ k :: a) O - 1 ≠ 0 := by omega
        have hob : ob = [] ∧ oa = [] := by simpa using hem
        have tot2 : total (b ++ a) (upd O k (ob ++ oa)) = total (b ++ k :: a) O - 1 - 1 := by omega
        refine ⟨m2, b ++ a, _, .ok, by simp [hem, e5, e6], r2, ?_, by omega⟩
        rw [ek, kb, ka, tot2]
        simp [hob.1, hob.2, tpos2]
      · have hne : ¬ (ob.map (fun n => (m.obj n).getD ⟨0, 0, 0⟩) ++ oa.map (fun n => (m.obj n).getD ⟨0, 0, 0⟩) = []) := by
          rw [← List.map_append]; simpa using hem
        have hem' : (List.map (2 * ·) (ob ++ oa)).isEmpty = false := by
          cases hl : ob ++ oa with
          | nil => exact (hem hl).elim
          | cons _ _ => rfl
        refine ⟨m1, _, _, .ok, by simp only [hem', Bool.false_eq_true, Bool.true_eq_false, if_false, C.ok_bind], r1, ?_, by omega⟩
        rw [List.map_append, List.map_cons, kb, ka, kk, tot1]
        simp only [hne, if_false, C.ok_bind]
        rfl

theorem objs_loop {k : Nat} : ∀ (l : List Nat) (m : Mem) (O : Nat → List Nat) (F : Nat), Rep m K O → k ∈ K → O k = l → l.length < F →
    ∃ m', destroyLoop m k F = C.ok (m', l.map fun o => (m.obj o).getD ⟨0, 0, 0⟩) ∧ Rep m' K (upd O k []) ∧ m'.key = m.key ∧ ∀ n, n ∉ l → m'.obj n = m.obj n
  | [], m, O, F, r, hk, hO, hF => by
    cases F with
    | zero => simp at hF
    | succ F =>
      obtain ⟨h, e, ok, al⟩ := removeHead_empty_op r.ok (a := 2 * k + 1) (by rw [world_key r.no0 hk, hO]; rfl)
      refine ⟨m.withD h, by simp [destroyLoop, e], ?_, rfl, fun _ _ => rfl⟩
      have eu : upd O k [] = O := by funext n; rw [upd_apply]; split <;> simp_all
      rw [eu]
      exact rep_of ok rfl rfl (fun _ _ h => h) r.key r.obj r.no0
  | x :: l, m, O, F, r, hk, hO, hF => by
    cases F with
    | zero => simp at hF
    | succ F =>
      have hx : x ∈ O k := by rw [hO]; simp
      have ndO := r.nodupO hk
      rw [hO] at ndO
      have nx : x ∉ l := (List.nodup_cons.1 ndO).1
      obtain ⟨h, e, ok, al⟩ := removeHead_op r.ok (a := 2 * k + 1) (x := 2 * x) (es := l.map (2 * ·)) (by rw [world_key r.no0 hk, hO]; rfl)
      obtain ⟨m1, e1, r1, k1, o1⟩ := del_obj r hk hx (by rw [hO]; simpa using ok)
      have er : (O k).erase x = l := by rw [hO]; simp
      rw [er] at r1
      obtain ⟨m2, e2, r2, k2, o2⟩ := objs_loop l m1 (upd O k l) F r1 hk (by simp [upd_apply]) (by simpa using hF)
      have eu : upd (upd O k l) k [] = upd O k [] := by funext n; simp only [upd_apply]; split <;> rfl
      rw [eu] at r2
      refine ⟨m2, ?_, r2, by rw [k2, k1], fun n hn => ?_⟩
      · have ne : ¬ 2 * x = 2 * k + 1 := by omega
        have ex : 2 * x / 2 = x := by omega
        cases hv : m.obj x with
        | none => exact ((r.obj x).2 ⟨k, hk, hx⟩ hv).elim
        | some v =>
          have hv' : (m.withD h).obj x = some v := hv
          have em : l.map (fun o => (m1.obj o).getD ⟨0, 0, 0⟩) = l.map (fun o => (m.obj o).getD ⟨0, 0, 0⟩) :=
            List.map_congr_left fun y hy => by have : y ≠ x := fun h => nx (h ▸ hy); simp [o1, upd_apply, this]
          simp only [destroyLoop, e, C.ok_bind, ne, if_false, ex, hv', e1, e2, em, List.map_cons, hv, Option.getD_some]
      · have : n ≠ x := fun h => hn (by simp [h])
        rw [o2 n (fun h => hn (by simp [h])), o1, upd_apply, if_neg this]

theorem loopT : ∀ (l : List Obj) (t : T), l.length ≤ t.blocks → Tracker.destroyLoop t l = C.ok ({ t with blocks := t.blocks - l.length }, l)
  | [], t, _ => rfl
  | o :: l, t, h => by
    have hb : t.blocks ≠ 0 := by simp at h; omega
    have hl : l.length ≤ t.blocks - 1 := by simp at h; omega
    simp only [Tracker.destroyLoop, Tracker.freeBlock, hb, if_false, C.ok_bind, loopT l { t with blocks := t.blocks - 1 } hl]
    simp
    omega

/-- Destroying all objects of a key. -/
theorem destroyAll_refines (r : Rep m K O) {F : Nat} (hF : total K O < F) (km : Nat → Nat → Match) (key : Nat) :
    ∃ m' K' O' calls, destroyAll F km m key = C.ok (m', calls) ∧ Rep m' K' O' ∧
      Tracker.destroyAll km (some (abs m K O)) key = C.ok (some (abs m' K' O'), calls) ∧ total K' O' ≤ total K O + 2 := by
  unfold destroyAll Tracker.destroyAll
  dsimp only
  rw [findKey_spec r (Nat.lt_of_le_of_lt len_le_total hF)]
  have hs' := scan_map (keyAt m O) (fun k => km k.key key) K
  change _ = mapFound _ (scan (fun n => km ((m.key n).getD 0) key) K) at hs'
  simp only [Tracker.acquire, Tracker.release, abs, Bool.false_eq_true, if_false, C.ok_bind, hs']
  cases hs : scan (fun n => km ((m.key n).getD 0) key) K with
  | fail => exact ⟨m, K, O, [], by simp [outcome], r, by simp [mapFound], by omega⟩
  | none => exact ⟨m, K, O, [], by simp [outcome], r, by simp [mapFound], by omega⟩
  | entry b k a =>
    obtain ⟨rfl, _⟩ := scan_entry hs
    have hkK : k ∈ b ++ k :: a := by simp
    have e2 : 2 * k / 2 = k := by omega
    obtain ⟨m1, e3, r1, k1, o1⟩ := objs_loop (O k) m O F r hkK rfl (Nat.lt_of_le_of_lt (objs_le_total hkK) hF)
    obtain ⟨kb, ka, kt⟩ := one_key (m' := m1) (l := []) r k1 fun n hn ne y hy => o1 y fun h => r.disj hkK hn (Ne.symm ne) h hy
    obtain ⟨h2, y, m2, e5, e6, r2, ek, et⟩ := drop_key r1 (by simp [upd_apply])
    simp only [List.length_nil, Nat.add_zero] at kt
    have hlt : (keyAt m O k).objs.length = (O k).length := by simp [keyAt]
    have hb : total (b ++ k :: a) O - (O k).length ≠ 0 := by omega
    have tot2 : total (b ++ a) (upd O k []) = total (b ++ k :: a) O - (O k).length - 1 := by omega
    refine ⟨m2, b ++ a, _, (O k).map fun o => (m.obj o).getD ⟨0, 0, 0⟩, by simp only [outcome, Bool.true_eq_false, if_false, C.ok_bind, e2, e3, e5, e6], r2, ?_, by omega⟩
    have hl := loopT (keyAt m O k).objs ⟨(b ++ k :: a).map (keyAt m O), true, total (b ++ k :: a) O⟩ (by dsimp only; omega)
    simp only [mapFound, hl, C.ok_bind, Tracker.freeBlock, hlt, hb, if_false, if_true, ek, kb, ka, tot2]
    rfl

/-- Acting on an object. -/
theorem act_refines (r : Rep m K O) {F : Nat} (hF : total K O < F) (km om : Nat → Nat → Match) (key object : Nat) (action : Option (Nat → Bool)) :
    ∃ res o, act F km om m key object action = C.ok (res, o) ∧ Tracker.act km om (some (abs m K O)) key object action = C.ok (some (abs m K O), res, o) := by
  unfold act Tracker.act
  cases action with
  | none => exact ⟨_, _, rfl, rfl⟩
  | some action =>
    dsimp only
    by_cases hz : key = 0 ∨ object = 0
    · rw [if_pos hz, if_pos hz]; exact ⟨_, _, rfl, rfl⟩
    rw [if_neg hz, if_neg hz, findKey_spec r (Nat.lt_of_le_of_lt len_le_total hF)]
    have hs' := scan_map (keyAt m O) (fun k => km k.key key) K
    change _ = mapFound _ (scan (fun n => km ((m.key n).getD 0) key) K) at hs'
    simp only [Tracker.acquire, Tracker.release, abs, Bool.false_eq_true, if_false, C.ok_bind, hs']
    cases hs : scan (fun n => km ((m.key n).getD 0) key) K with
    | fail => exact ⟨.error, none, by simp [outcome], by simp [mapFound]⟩
    | none => exact ⟨.keyNotFound, none, by simp [outcome], by simp [mapFound]⟩
    | entry b k a =>
      obtain ⟨rfl, _⟩ := scan_entry hs
      have hkK : k ∈ b ++ k :: a := by simp
      have e2 : 2 * k / 2 = k := by omega
      have hfo := findObj_spec r hkK (Nat.lt_of_le_of_lt (objs_le_total hkK) hF) om object
      have hso := scan_map (fun n => (m.obj n).getD ⟨0, 0, 0⟩) (fun x => om x.object object) (O k)
      change scan (fun x => om x.object object) (keyAt m O k).objs = _ at hso
      simp only [outcome, mapFound, Bool.true_eq_false, if_false, e2, C.ok_bind, hfo, hso]
      cases hs2 : scan (fun n => om ((m.obj n).getD ⟨0, 0, 0⟩).object object) (O k) with
      | fail => exact ⟨.error, none, by simp, by simp⟩
      | none => exact ⟨.objectNotFound, none, by simp, by simp⟩
      | entry ob x oa =>
        obtain ⟨eO, _⟩ := scan_entry hs2
        have hx : x ∈ O k := by rw [eO]; simp
        have ex : 2 * x / 2 = x := by omega
        cases hv : m.obj x with
        | none => exact ((r.obj x).2 ⟨k, hkK, hx⟩ hv).elim
        | some v => exact ⟨_, _, by simp [ex, hv]; exact ⟨rfl, rfl⟩, by simp [hv]⟩

/-! ### Histories -/

/-- C76: each call, from any state of the tracker, whatever blocks malloc gives, is defined on the heap (it touches no freed structure and frees none twice), answers
what Verif/Tracker says, and leaves exactly the structures of the registered keys and objects allocated. -/
theorem call_refines (r : Rep m K O) {F : Nat} (hF : total K O < F) (km om : Nat → Nat → Match) {al : Option Nat × Option Nat} (hk : ∀ p, al.1 = some p → Fresh m p) (ho : ∀ q, al.2 = some q → Fresh m q)
    (hne : ∀ p, al.1 = some p → al.2 ≠ some p) (c : Call) :
    ∃ m' K' O' ans, exec F km om al m c = C.ok (m', ans) ∧ Rep m' K' O' ∧ execT km om al.1.isSome al.2.isSome (some (abs m K O)) c = C.ok (some (abs m' K' O'), ans) ∧
      total K' O' ≤ total K O + 2 := by
  cases c with
  | register key o =>
    obtain ⟨m', K', O', res, e1, r', e2, t⟩ := register_refines r hF km om hk ho hne key o
    exact ⟨m', K', O', .register res, by simp [exec, e1], r', by simp [execT, e2], t⟩
  | unregister key object =>
    obtain ⟨m', K', O', res, e1, r', e2, t⟩ := unregister_refines r hF km om key object
    exact ⟨m', K', O', .unregister res, by simp [exec, e1], r', by simp [execT, e2], t⟩
  | destroyAll key =>
    obtain ⟨m', K', O', res, e1, r', e2, t⟩ := destroyAll_refines r hF km key
    exact ⟨m', K', O', .destroyed res, by simp [exec, e1], r', by simp [execT, e2], t⟩
  | act key object action =>
    obtain ⟨res, o, e1, e2⟩ := act_refines r hF km om key object action
    exact ⟨m, K, O, .act res o, by simp [exec, e1], r, by simp [execT, e2], by omega⟩

end

theorem created_rep : Rep created [] (fun _ => []) := by
  refine ⟨⟨?_, ?_⟩, by simp [created], by simp [created], by simp⟩
  · intro a es e
    rcases world_inv e with ⟨rfl, rfl⟩ | ⟨k, hk, _⟩
    · exact ⟨by simp [Adjs, created, Mem.d], by simp, by simp [created, Mem.d]⟩
    · simp at hk
  · intro a es b fs e1 e2 ne
    rcases world_inv e1 with ⟨rfl, rfl⟩ | ⟨k, hk, _⟩
    · rcases world_inv e2 with ⟨rfl, rfl⟩ | ⟨k, hk, _⟩
      · exact (ne rfl).elim
      · simp at hk
    · simp at hk

theorem bounded : ∀ (l : List Nat), ∃ N, ∀ n ∈ l, n < N
  | [] => ⟨0, by simp⟩
  | x :: l => by
    obtain ⟨N, h⟩ := bounded l
    exact ⟨N + x + 1, fun n hn => by
      rcases List.mem_cons.1 hn with rfl | hn
      · omega
      · have := h n hn; omega⟩

/-- Only finitely many blocks are allocated. -/
theorem finite {m : Mem} {K : List Nat} {O : Nat → List Nat} (r : Rep m K O) : ∃ N, ∀ n ≥ N, m.key n = none ∧ m.obj n = none := by
  obtain ⟨N, h⟩ := bounded (K ++ K.flatMap O)
  refine ⟨N, fun n hn => ⟨Classical.byContradiction fun hc => ?_, Classical.byContradiction fun hc => ?_⟩⟩
  · have := h n (by simp [(r.key n).1 hc]); omega
  · obtain ⟨k, hk, hx⟩ := (r.obj n).1 hc
    have := h n (List.mem_append.2 (Or.inr (List.mem_flatMap.2 ⟨k, hk, hx⟩)))
    omega

theorem run_refines (km om : Nat → Nat → Match) (A : Nat → Mem → Nat × Nat) (hA : Malloc A) (B : Nat → Bool × Bool) : ∀ (cs : List Call) (F i : Nat) (m : Mem) (K : List Nat) (O : Nat → List Nat), Rep m K O →
    total K O + 2 * cs.length < F → ∃ m' K' O' anss, run F km om A B i m cs = C.ok (m', anss) ∧ Rep m' K' O' ∧ runT km om B i (some (abs m K O)) cs = C.ok (some (abs m' K' O'), anss)
  | [], F, i, m, K, O, r, _ => ⟨m, K, O, [], rfl, r, rfl⟩
  | c :: cs, F, i, m, K, O, r, hF => by
    simp only [List.length_cons] at hF
    obtain ⟨h1, h2, h3⟩ := hA i m (finite r)
    obtain ⟨m1, K1, O1, a, e1, r1, e2, t⟩ := call_refines r (F := F) (by omega) km om
      (al := (if (B i).1 then some (A i m).1 else none, if (B i).2 then some (A i m).2 else none))
      (fun p hp => by dsimp only at hp; split at hp <;> simp at hp; exact hp ▸ h1)
      (fun p hp => by dsimp only at hp; split at hp <;> simp at hp; exact hp ▸ h2)
      (fun p hp hq => by
        dsimp only at hp hq
        split at hp <;> simp at hp
        split at hq <;> simp at hq
        exact h3 (hp.trans hq.symm)) c
    have b1 : ((if (B i).1 then some (A i m).1 else none) : Option Nat).isSome = (B i).1 := by cases (B i).1 <;> rfl
    have b2 : ((if (B i).2 then some (A i m).2 else none) : Option Nat).isSome = (B i).2 := by cases (B i).2 <;> rfl
    dsimp only at e2
    rw [b1, b2] at e2
    obtain ⟨m', K', O', anss, e3, r', e4⟩ := run_refines km om A hA B cs F (i + 1) m1 K1 O1 r1 (by omega)
    exact ⟨m', K', O', a :: anss, by simp only [run, e1, e3, C.ok_bind]; rfl, r', by simp only [runT, e2, e4, C.ok_bind]; rfl⟩

/-- C76: any history of calls on a new tracker, whatever blocks malloc gives and whichever allocations fail, is defined on the heap; its answers are those of the tracker of lists (C33, C34) when the
same allocations fail; and afterwards exactly the structures of the keys and objects still registered are allocated. -/
theorem history (km om : Nat → Nat → Match) (A : Nat → Mem → Nat × Nat) (hA : Malloc A) (B : Nat → Bool × Bool) (cs : List Call) {F : Nat} (hF : 2 * cs.length < F) :
    ∃ (m : Mem) (K : List Nat) (O : Nat → List Nat) (anss : List Ans) (t : T), run F km om A B 0 created cs = C.ok (m, anss) ∧
      runT km om B 0 (Tracker.create true true true true) cs = C.ok (some t, anss) ∧
      t.keys = K.map (keyAt m O) ∧ t.locked = false ∧ (∀ n, m.key n ≠ none ↔ n ∈ K) ∧ (∀ n, m.obj n ≠ none ↔ ∃ k ∈ K, n ∈ O k) ∧ K.Nodup ∧ ∀ k ∈ K, (O k).Nodup := by
  obtain ⟨m, K, O, anss, e1, r, e2⟩ := run_refines km om A hA B cs F 0 created [] (fun _ => []) created_rep (by simp [total]; omega)
  exact ⟨m, K, O, anss, _, e1, e2, rfl, rfl, r.key, r.obj, r.nodup, fun k hk => r.nodupO hk⟩

/-- C76: when, after any history, no key is registered any more, nothing is allocated any more. -/
theorem no_leak (km om : Nat → Nat → Match) (A : Nat → Mem → Nat × Nat) (hA : Malloc A) (B : Nat → Bool × Bool) (cs : List Call) {F : Nat} (hF : 2 * cs.length < F) {m : Mem} {anss : List Ans}
    (e : run F km om A B 0 created cs = C.ok (m, anss)) {t : T} {anss' : List Ans} (e' : runT km om B 0 (Tracker.create true true true true) cs = C.ok (some t, anss')) (h : t.keys = []) :
    (∀ n, m.key n = none) ∧ ∀ n, m.obj n = none := by
  obtain ⟨m1, K, O, _, t1, e1, e2, hk, _, key, obj, _⟩ := history km om A hA B cs hF
  rw [e] at e1; cases e1
  rw [e'] at e2; cases e2
  have : K = [] := by simpa [h] using hk.symm
  subst this
  exact ⟨fun n => Classical.byContradiction fun h => by simpa using (key n).1 h, fun n => Classical.byContradiction fun h => by simpa using (obj n).1 h⟩

/-- Equality of pointers, as a matching function. -/
def same (a b : Nat) : Match := if a = b then .matching else .notMatching

/-- Two objects of one key are registered, one of another (one allocation fails on the way); the first key is destroyed and the third object unregistered. -/
example : ∃ m, run 20 same same (fun i _ => (2 * i + 5, 2 * i + 6)) (fun i => (true, i ≠ 2)) 0 created
    [.register 100 ⟨11, 1, 0⟩, .register 100 ⟨12, 1, 0⟩, .register 200 ⟨13, 1, 0⟩, .register 200 ⟨13, 1, 0⟩, .destroyAll 100, .unregister 200 13] =
    C.ok (m, [.register .newKey, .register .newObject, .register .error, .register .newKey, .destroyed [⟨12, 1, 0⟩, ⟨11, 1, 0⟩], .unregister .ok]) := ⟨_, rfl⟩

open Classical in
/-- There is a malloc. -/
example : ∃ A, Malloc A := by
  refine ⟨fun _ m => if h : ∃ N, ∀ n ≥ N, m.key n = none ∧ m.obj n = none then (h.choose + 1, h.choose + 2) else (0, 0), fun i m h => ?_⟩
  have hc := h.choose_spec
  dsimp only
  rw [dif_pos h]
  dsimp only
  exact ⟨⟨by omega, hc _ (by omega)⟩, ⟨by omega, hc _ (by omega)⟩, by omega⟩

end CUtil.TrackerHeap
