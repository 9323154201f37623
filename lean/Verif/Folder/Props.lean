import Verif.Folder.Model
set_option linter.unusedSimpArgs false
set_option linter.unusedVariables false
/-
C56: for_each_in_folder and for_each_in_sub_folder.
-/
namespace CUtil.Folder
open CUtil

/-! ### Specification -/

/-- State after the callback was called for these entries, one after the other. -/
def after {σ : Type} (cb : Callback σ) (folder : Path) : List Entry → W σ → W σ
  | [], w => w
  | e :: es, w => after cb folder es (cb folder e w).2.2

/-- The callback returned 0 and asked to go on. -/
def GoesOn {σ : Type} (cb : Callback σ) (folder : Path) (e : Entry) (w : W σ) : Prop := (cb folder e w).1 = 0 ∧ (cb folder e w).2.1 = true

/-- The callback was called exactly for `done`, in this order: all of them but the last asked to go on, and the last asked to
go on only if there was no entry left. -/
inductive Visited {σ : Type} (cb : Callback σ) (folder : Path) : List Entry → W σ → List Entry → Prop where
  | stop {e es w} : ¬ GoesOn cb folder e w → Visited cb folder (e :: es) w [e]
  | last {e w} : GoesOn cb folder e w → Visited cb folder [e] w [e]
  | more {e e' es w done} : GoesOn cb folder e w → Visited cb folder (e' :: es) (cb folder e w).2.2 done →
      Visited cb folder (e :: e' :: es) w (e :: done)

/-- No failure: no call of the callback failed; and unless the last call asked to stop, the listing ended regularly. -/
def Good {σ : Type} (cb : Callback σ) (folder : Path) (lastError : Nat) : List Entry → W σ → Prop
  | [], _ => lastError = ERROR_NO_MORE_FILES
  | e :: es, w => (cb folder e w).1 = 0 ∧ ((cb folder e w).2.1 = false ∨ Good cb folder lastError es (cb folder e w).2.2)

/-! ### for_each_in_folder -/

theorem loop_spec {σ : Type} (cb : Callback σ) (folder : Path) (lastError : Nat) : ∀ (rest : List Entry) (e : Entry) (w : W σ),
    ∃ done, Visited cb folder (e :: rest) w done ∧ (loop cb folder lastError e rest w).2 = after cb folder done w ∧
      ((loop cb folder lastError e rest w).1 = false ↔ Good cb folder lastError (e :: rest) w) := by
  intro rest
  induction rest with
  | nil =>
    intro e w
    unfold loop
    by_cases h1 : (cb folder e w).1 = 0
    · rw [if_neg (by simp [h1])]
      cases h2 : (cb folder e w).2.1 with
      | false =>
        refine ⟨[e], .stop (fun h => by have := h.2; rw [h2] at this; cases this), by simp [after], by simp [Good, h1, h2]⟩
      | true =>
        rw [if_neg (by simp)]
        dsimp only
        refine ⟨[e], .last ⟨h1, h2⟩, by split <;> simp [after], ?_⟩
        split
        · rename_i hl; simp [Good, h1, h2, hl]
        · rename_i hl; simp [Good, h1, h2, hl]
    · rw [if_pos h1]
      exact ⟨[e], .stop (fun h => h1 h.1), by simp [after], by simp [Good, h1]⟩
  | cons e' rest ih =>
    intro e w
    rw [loop.eq_def]
    dsimp only
    by_cases h1 : (cb folder e w).1 = 0
    · rw [if_neg (by simp [h1])]
      cases h2 : (cb folder e w).2.1 with
      | false =>
        refine ⟨[e], .stop (fun h => by have := h.2; rw [h2] at this; cases this), by simp [after], by simp [Good, h1, h2]⟩
      | true =>
        rw [if_neg (by simp)]
        obtain ⟨done, g1, g2, g3⟩ := ih e' (cb folder e w).2.2
        refine ⟨e :: done, .more ⟨h1, h2⟩ g1, by rw [g2]; rfl, ?_⟩
        rw [g3]
        conv => rhs; unfold Good
        simp [h1, h2]
    · rw [if_pos h1]
      exact ⟨[e], .stop (fun h => h1 h.1), by simp [after], by simp [Good, h1]⟩

/-- C56 (1): on a folder with entries, the callback is called for each in order until a failure or a request to stop; 0 is
returned exactly when no failure occurred; the search is opened once, before the calls, and closed once, after them. -/
theorem for_each_in_folder_spec {σ : Type} {find : Path → W σ → Found} {alloc : Path → Bool} {folder : Path} (cb : Callback σ) {w : W σ}
    (ha : alloc (folder ++ [92, 42]) = true) {e : Entry} {rest : List Entry} {lastError : Nat}
    (hf : find (folder ++ [92, 42]) w = .listing e rest lastError) :
    ∃ done, Visited cb folder (e :: rest) { w with log := w.log ++ [.opened folder] } done ∧
      (forEachInFolder find alloc (some folder) (some cb) w).2 =
        { user := (after cb folder done { w with log := w.log ++ [.opened folder] }).user,
          log := (after cb folder done { w with log := w.log ++ [.opened folder] }).log ++ [.closed folder] } ∧
      ((forEachInFolder find alloc (some folder) (some cb) w).1 = 0 ↔ Good cb folder lastError (e :: rest) { w with log := w.log ++ [.opened folder] }) := by
  obtain ⟨done, h1, h2, h3⟩ := loop_spec cb folder lastError rest e { w with log := w.log ++ [.opened folder] }
  refine ⟨done, h1, ?_, ?_⟩
  · unfold forEachInFolder
    dsimp only
    rw [if_neg (by simp [ha]), hf]
    dsimp only
    rw [h2]
  · rw [← h3]
    unfold forEachInFolder
    dsimp only
    rw [if_neg (by simp [ha]), hf]
    dsimp only
    cases (loop cb folder lastError e rest { w with log := w.log ++ [.opened folder] }).1 <;> simp [MU_FAILURE]

/-- C56 (2): no search is opened and no callback called when there is nothing to enumerate: a folder that is not there or has
nothing is no failure, any other error, a NULL argument and lack of memory are. -/
theorem for_each_in_folder_empty {σ : Type} (find : Path → W σ → Found) (alloc : Path → Bool) (folder : Path) (cb : Callback σ) (w : W σ) :
    (alloc (folder ++ [92, 42]) = false → ∃ r, r ≠ 0 ∧ forEachInFolder find alloc (some folder) (some cb) w = (r, w)) ∧
    (∀ lastError, alloc (folder ++ [92, 42]) = true → find (folder ++ [92, 42]) w = .fail lastError →
      ∃ r, (r = 0 ↔ lastError = 2 ∨ lastError = 3) ∧ forEachInFolder find alloc (some folder) (some cb) w = (r, w)) ∧
    (∃ r, r ≠ 0 ∧ forEachInFolder find alloc none (some cb) w = (r, w)) ∧
    (∃ r, r ≠ 0 ∧ forEachInFolder find alloc (some folder) none w = (r, w)) := by
  refine ⟨?_, ?_, ⟨1, by decide, rfl⟩, ⟨1, by decide, rfl⟩⟩
  · intro h
    refine ⟨1, by decide, ?_⟩
    unfold forEachInFolder
    dsimp only
    rw [if_pos h]
  · intro le ha hf
    unfold forEachInFolder
    dsimp only
    rw [if_neg (by simp [ha]), hf]
    dsimp only
    by_cases h : le = 2 ∨ le = 3
    · rw [if_pos h]; exact ⟨0, by simp [h], rfl⟩
    · rw [if_neg h]; exact ⟨1, by simp [h], rfl⟩

/-- The log of a callback that only logs its calls shows exactly the entries visited. -/
theorem visited_log {σ : Type} (f : Path → Entry → σ → Int × Bool × σ) (folder : Path) : ∀ (done : List Entry) (w : W σ),
    (after (fun p e w => ((f p e w.user).1, (f p e w.user).2.1, { user := (f p e w.user).2.2, log := w.log ++ [Ev.call p e] })) folder done w).log =
      w.log ++ done.map (Ev.call folder) := by
  intro done
  induction done with
  | nil => intro w; simp [after]
  | cons e es ih => intro w; simp [after, ih]

/-- The entries visited are the first ones of the folder, at least one. -/
theorem visited_prefix {σ : Type} {cb : Callback σ} {folder : Path} {es : List Entry} {w : W σ} {done : List Entry} (h : Visited cb folder es w done) :
    done <+: es ∧ done ≠ [] := by
  induction h with
  | stop _ => simp
  | last _ => simp
  | more _ _ ih =>
    refine ⟨?_, by simp⟩
    exact (List.prefix_cons_inj _).2 ih.1

/-! ### for_each_in_sub_folder -/

/-- The sub-folders among the entries: `.` and `..` are not. -/
def subFolders (folder : Path) (es : List Entry) : List Path :=
  (es.filter (fun e => e.isDir && e.name != [46] && e.name != [46, 46])).map (fun e => folder ++ [92] ++ e.name)

theorem subFolders_neg {folder : Path} {e : Entry} {es : List Entry} (h : (e.isDir && e.name != [46] && e.name != [46, 46]) = false) :
    subFolders folder (e :: es) = subFolders folder es := by
  unfold subFolders; rw [List.filter_cons, if_neg (by rw [h]; simp)]

theorem subFolders_pos {folder : Path} {e : Entry} {es : List Entry} (h : (e.isDir && e.name != [46] && e.name != [46, 46]) = true) :
    subFolders folder (e :: es) = (folder ++ [92] ++ e.name) :: subFolders folder es := by
  unfold subFolders; rw [List.filter_cons, if_pos h]; rfl

/-- for_each_in_folder on each path in turn until one fails (or its name cannot be built). -/
def each {σ : Type} (find : Path → W σ → Found) (alloc : Path → Bool) (cb : Callback σ) : List Path → W σ → Bool × W σ
  | [], w => (true, w)
  | p :: ps, w =>
    if alloc p = false then (false, w)
    else if (forEachInFolder find alloc (some p) (some cb) w).1 = 0 then each find alloc cb ps (forEachInFolder find alloc (some p) (some cb) w).2
    else (false, (forEachInFolder find alloc (some p) (some cb) w).2)

theorem each_noMem {σ : Type} {find : Path → W σ → Found} {alloc : Path → Bool} {cb : Callback σ} {p : Path} {ps : List Path} {w : W σ} (h : alloc p = false) :
    each find alloc cb (p :: ps) w = (false, w) := by unfold each; rw [if_pos h]

theorem each_fail {σ : Type} {find : Path → W σ → Found} {alloc : Path → Bool} {cb : Callback σ} {p : Path} {ps : List Path} {w : W σ} (h : alloc p = true)
    (h2 : (forEachInFolder find alloc (some p) (some cb) w).1 ≠ 0) :
    each find alloc cb (p :: ps) w = (false, (forEachInFolder find alloc (some p) (some cb) w).2) := by
  rw [each.eq_def]; dsimp only; rw [h, if_neg (by simp), if_neg h2]

theorem each_ok {σ : Type} {find : Path → W σ → Found} {alloc : Path → Bool} {cb : Callback σ} {p : Path} {ps : List Path} {w : W σ} (h : alloc p = true)
    (h2 : (forEachInFolder find alloc (some p) (some cb) w).1 = 0) :
    each find alloc cb (p :: ps) w = each find alloc cb ps (forEachInFolder find alloc (some p) (some cb) w).2 := by
  conv => lhs; rw [each.eq_def]; dsimp only
  rw [h, if_neg (by simp), if_pos h2]

theorem sub_loop {σ : Type} (find : Path → W σ → Found) (alloc : Path → Bool) (cb : Callback σ) (folder : Path) (lastError : Nat) :
    ∀ (rest : List Entry) (e : Entry) (w : W σ),
      (loop (onSubfolder find alloc cb) folder lastError e rest w).2 = (each find alloc cb (subFolders folder (e :: rest)) w).2 ∧
      ((loop (onSubfolder find alloc cb) folder lastError e rest w).1 = false ↔
        (each find alloc cb (subFolders folder (e :: rest)) w).1 = true ∧ lastError = ERROR_NO_MORE_FILES) := by
  -- what the callback does with one entry
  have hcb : ∀ (e : Entry) (w : W σ),
      ((e.isDir && e.name != [46] && e.name != [46, 46]) = false ∧ onSubfolder find alloc cb folder e w = (0, true, w)) ∨
      ((e.isDir && e.name != [46] && e.name != [46, 46]) = true ∧ alloc (folder ++ [92] ++ e.name) = false ∧ onSubfolder find alloc cb folder e w = (MU_FAILURE, false, w)) ∨
      ((e.isDir && e.name != [46] && e.name != [46, 46]) = true ∧ alloc (folder ++ [92] ++ e.name) = true ∧
        (forEachInFolder find alloc (some (folder ++ [92] ++ e.name)) (some cb) w).1 ≠ 0 ∧
        onSubfolder find alloc cb folder e w = (MU_FAILURE, false, (forEachInFolder find alloc (some (folder ++ [92] ++ e.name)) (some cb) w).2)) ∨
      ((e.isDir && e.name != [46] && e.name != [46, 46]) = true ∧ alloc (folder ++ [92] ++ e.name) = true ∧
        (forEachInFolder find alloc (some (folder ++ [92] ++ e.name)) (some cb) w).1 = 0 ∧
        onSubfolder find alloc cb folder e w = (0, true, (forEachInFolder find alloc (some (folder ++ [92] ++ e.name)) (some cb) w).2)) := by
    intro e w
    unfold onSubfolder
    cases hd : e.isDir with
    | false => simp
    | true =>
      rw [if_neg (by simp)]
      by_cases hn : e.name = [46] ∨ e.name = [46, 46]
      · rw [if_pos hn]; left
        rcases hn with hn | hn <;> simp [hn]
      · rw [if_neg hn]
        have hn' : (true && e.name != [46] && e.name != [46, 46]) = true := by
          have h1 : e.name ≠ [46] := fun h => hn (Or.inl h)
          have h2 : e.name ≠ [46, 46] := fun h => hn (Or.inr h)
          simp [h1, h2]
        right
        cases ha : alloc (folder ++ [92] ++ e.name) with
        | false => left; exact ⟨hn', rfl, by simp⟩
        | true =>
          right
          rw [if_neg (by simp)]
          by_cases hr : (forEachInFolder find alloc (some (folder ++ [92] ++ e.name)) (some cb) w).1 = 0
          · right; exact ⟨hn', rfl, hr, by rw [if_neg (fun h => h hr)]⟩
          · left; exact ⟨hn', rfl, hr, by rw [if_pos hr]⟩
  intro rest
  induction rest with
  | nil =>
    intro e w
    rw [loop.eq_def]
    dsimp only
    rcases hcb e w with ⟨h1, h2⟩ | ⟨h1, h2, h3⟩ | ⟨h1, h2, h3, h4⟩ | ⟨h1, h2, h3, h4⟩
    · rw [h2, subFolders_neg h1, show subFolders folder [] = [] from rfl, each]
      dsimp only
      rw [if_neg (by simp), if_neg (by simp)]
      split <;> simp_all
    · rw [h3, subFolders_pos h1, each_noMem h2]
      simp [MU_FAILURE]
    · rw [h4, subFolders_pos h1, each_fail h2 h3]
      simp [MU_FAILURE]
    · rw [h4, subFolders_pos h1, each_ok h2 h3, show subFolders folder [] = [] from rfl, each]
      dsimp only
      rw [if_neg (by simp), if_neg (by simp)]
      split
      · simp_all
      · rename_i hle; exact ⟨rfl, by simp [hle]⟩
  | cons e' rest ih =>
    intro e w
    rw [loop.eq_def]
    dsimp only
    rcases hcb e w with ⟨h1, h2⟩ | ⟨h1, h2, h3⟩ | ⟨h1, h2, h3, h4⟩ | ⟨h1, h2, h3, h4⟩
    · rw [h2, subFolders_neg h1]
      simp only [ne_eq, not_true_eq_false, if_false, Bool.true_eq_false]
      exact ih e' w
    · rw [h3, subFolders_pos h1, each_noMem h2]
      simp [MU_FAILURE]
    · rw [h4, subFolders_pos h1, each_fail h2 h3]
      simp [MU_FAILURE]
    · rw [h4, subFolders_pos h1, each_ok h2 h3]
      simp only [ne_eq, not_true_eq_false, if_false, Bool.true_eq_false]
      exact ih e' _

/-- C56 (3): for_each_in_sub_folder applies for_each_in_folder to each sub-folder, in order, leaving out `.` and `..`, until one
fails; the search of the folder itself is open around all that; 0 is returned exactly when no failure occurred. -/
theorem for_each_in_sub_folder_spec {σ : Type} {find : Path → W σ → Found} {alloc : Path → Bool} {folder : Path} (cb : Callback σ) {w : W σ}
    (ha : alloc (folder ++ [92, 42]) = true) {e : Entry} {rest : List Entry} {lastError : Nat}
    (hf : find (folder ++ [92, 42]) w = .listing e rest lastError) :
    (forEachInSubFolder find alloc (some folder) (some cb) w).2 =
        { user := (each find alloc cb (subFolders folder (e :: rest)) { w with log := w.log ++ [.opened folder] }).2.user,
          log := (each find alloc cb (subFolders folder (e :: rest)) { w with log := w.log ++ [.opened folder] }).2.log ++ [.closed folder] } ∧
      ((forEachInSubFolder find alloc (some folder) (some cb) w).1 = 0 ↔
        (each find alloc cb (subFolders folder (e :: rest)) { w with log := w.log ++ [.opened folder] }).1 = true ∧ lastError = ERROR_NO_MORE_FILES) := by
  obtain ⟨h1, h2⟩ := sub_loop find alloc cb folder lastError rest e { w with log := w.log ++ [.opened folder] }
  have hfe : forEachInFolder find alloc (some folder) (some (onSubfolder find alloc cb)) w =
      (if (loop (onSubfolder find alloc cb) folder lastError e rest { w with log := w.log ++ [.opened folder] }).1 then MU_FAILURE else 0,
        { user := (each find alloc cb (subFolders folder (e :: rest)) { w with log := w.log ++ [.opened folder] }).2.user,
          log := (each find alloc cb (subFolders folder (e :: rest)) { w with log := w.log ++ [.opened folder] }).2.log ++ [.closed folder] }) := by
    unfold forEachInFolder
    dsimp only
    rw [if_neg (by simp [ha]), hf]
    dsimp only
    rw [h1]
  unfold forEachInSubFolder
  dsimp only
  rw [hfe]
  dsimp only
  rw [← h2]
  cases (loop (onSubfolder find alloc cb) folder lastError e rest { w with log := w.log ++ [.opened folder] }).1 <;> simp [MU_FAILURE]

/-- Every search that was opened was closed, whatever the callback does (if it keeps its own searches in order). -/
def balance : List Ev → Int
  | [] => 0
  | .opened _ :: es => balance es + 1
  | .closed _ :: es => balance es - 1
  | .call _ _ :: es => balance es

theorem balance_append (a b : List Ev) : balance (a ++ b) = balance a + balance b := by
  induction a with
  | nil => simp [balance]
  | cons e a ih => cases e <;> simp only [List.cons_append, balance, ih] <;> omega

theorem for_each_balanced {σ : Type} (find : Path → W σ → Found) (alloc : Path → Bool) {cb : Callback σ}
    (hb : ∀ p e w, balance (cb p e w).2.2.log = balance w.log) (folder : Option Path) (w : W σ) :
    balance (forEachInFolder find alloc folder (some cb) w).2.log = balance w.log := by
  have hl : ∀ (rest : List Entry) (p : Path) (le : Nat) (e : Entry) (w : W σ), balance (loop cb p le e rest w).2.log = balance w.log := by
    intro rest
    induction rest with
    | nil => intro p le e w; unfold loop; split; · exact hb _ _ _
             · split
               · exact hb _ _ _
               · dsimp only; split <;> exact hb _ _ _
    | cons e' rest ih =>
      intro p le e w
      rw [loop.eq_def]
      dsimp only
      split
      · exact hb _ _ _
      · split
        · exact hb _ _ _
        · rw [ih, hb]
  unfold forEachInFolder
  cases folder with
  | none => rfl
  | some folder =>
    dsimp only
    split
    · rfl
    · split
      · split <;> rfl
      · dsimp only
        rw [balance_append, hl, balance_append]
        simp only [balance]
        omega

theorem for_each_sub_balanced {σ : Type} (find : Path → W σ → Found) (alloc : Path → Bool) {cb : Callback σ}
    (hb : ∀ p e w, balance (cb p e w).2.2.log = balance w.log) (folder : Option Path) (w : W σ) :
    balance (forEachInSubFolder find alloc folder (some cb) w).2.log = balance w.log := by
  have hs : ∀ p e w, balance (onSubfolder find alloc cb p e w).2.2.log = balance w.log := by
    intro p e w
    unfold onSubfolder
    split
    · rfl
    · split
      · rfl
      · split
        · rfl
        · split <;> exact for_each_balanced find alloc hb _ _
  unfold forEachInSubFolder
  cases folder with
  | none => rfl
  | some folder =>
    dsimp only
    split <;> exact for_each_balanced find alloc hs _ _

/-! ### Witness: a folder with `.`, a file, a sub-folder with two files; the callback stops at a file named `s` -/

def demoFind : Path → W Nat → Found := fun p _ =>
  if p = [65, 92, 42] then .listing ⟨true, [46]⟩ [⟨false, [102]⟩, ⟨true, [66]⟩, ⟨true, [67]⟩] 18
  else if p = [65, 92, 66, 92, 42] then .listing ⟨false, [115]⟩ [⟨false, [116]⟩] 18
  else .fail 3

def demoCb : Callback Nat := fun p e w => (0, e.name != [115], { user := w.user + 1, log := w.log ++ [.call p e] })

example : (forEachInSubFolder demoFind (fun _ => true) (some [65]) (some demoCb) ⟨0, []⟩).1 = 0 ∧
    (forEachInSubFolder demoFind (fun _ => true) (some [65]) (some demoCb) ⟨0, []⟩).2.log =
      [.opened [65], .opened [65, 92, 66], .call [65, 92, 66] ⟨false, [115]⟩, .closed [65, 92, 66], .closed [65]] := by decide +kernel

example : (forEachInFolder demoFind (fun _ => true) (some [65]) (some demoCb) ⟨0, []⟩).2.log =
    [.opened [65], .call [65] ⟨true, [46]⟩, .call [65] ⟨false, [102]⟩, .call [65] ⟨true, [66]⟩, .call [65] ⟨true, [67]⟩, .closed [65]] := by decide +kernel

end CUtil.Folder
