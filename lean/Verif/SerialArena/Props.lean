import Verif.SerialArena.Model
import Verif.SerialArena.Spec
import Verif.ConstBuffer.Props
/-
C84: buffers serialized one after the other into an ever-growing array
(tests/constbuffer_serialization_sample).
-/
namespace CUtil.SerialArena
open CUtil CUtil.ConstBuffer CUtil.MemoryData

/-- The array after the contents `done` were accepted. -/
structure Inv (x : Ctx) (done : List (List UInt8)) : Prop where
  block : x.buffer.length = x.capacity
  small : x.capacity < 2 ^ 63
  fits : x.size ≤ x.capacity
  used : x.size = (Spec.wire done).length
  bytes : x.buffer.take x.size = (Spec.wire done).map some
  tight : x.capacity < x.size + 1000
  steps : 1000 * x.grown ≤ x.capacity
  few : x.grown ≤ done.length
  stat : x.n_reallocs = x.grown % 2 ^ 32

theorem inv_init : Inv init [] := by
  constructor <;> simp [init, Spec.wire]

/-- The condition under which a content is refused. -/
def Refused (x : Ctx) (c : List UInt8) (g : Bool) : Prop :=
  2 ^ 32 ≤ 5 + c.length ∨
    (x.capacity < x.size + (5 + c.length) ∧ (g = false ∨ 2 ^ 63 ≤ x.capacity + max 1000 (5 + c.length)))

theorem wire_snoc (done : List (List UInt8)) (c : List UInt8) :
    Spec.wire (done ++ [c]) = Spec.wire done ++ ConstBuffer.Spec.format c := by
  simp [Spec.wire]

theorem localmax (n : Nat) : LOCALMAX GROW_BY n = max 1000 n := by
  simp only [LOCALMAX, GROW_BY]; split <;> omega

/-- Writing the serialization of `c` at the end of the used part. -/
theorem serialize_at (x' : Ctx) (c : List UInt8) (o : Nat) (done : List (List UInt8))
    (hc : 5 + c.length < 2 ^ 32) (hb : x'.buffer.length = x'.capacity) (hs : x'.capacity < 2 ^ 63)
    (hf : x'.size ≤ x'.capacity) (ho : x'.size = o + (5 + c.length))
    (hw : o = (Spec.wire done).length) (hby : x'.buffer.take o = (Spec.wire done).map some)
    (ht : x'.capacity < x'.size + 1000) (hst : 1000 * x'.grown ≤ x'.capacity)
    (hfew : x'.grown ≤ done.length + 1) (hn : x'.n_reallocs = x'.grown % 2 ^ 32) :
    ∃ m, to_buffer (some c) (fun _ => some (x'.buffer.drop o)) true = C.ok (some m, some (5 + c.length)) ∧
      Inv { x' with buffer := x'.buffer.take o ++ m } (done ++ [c]) := by
  simp only [Nat.reducePow] at *
  have h1 := writeAll_eq c ((x'.buffer.drop o).take (5 + c.length)) ((x'.buffer.drop o).drop (5 + c.length)) (by simp; omega)
  rw [List.take_append_drop] at h1
  refine ⟨(ConstBuffer.Spec.format c).map some ++ (x'.buffer.drop o).drop (5 + c.length), ?_, ?_⟩
  · simp only [to_buffer]
    rw [if_neg (by simp), if_neg (by simp only [U32MAX]; omega)]
    simp only [h1, C.ok_bind, C.pure_eq]
    rw [Nat.mod_eq_of_lt (by simp only [HDR, Nat.reducePow]; omega)]
  · have hfl := format_length c
    constructor
    · simp [hfl]; omega
    · simpa using hs
    · simpa using hf
    · simp only [wire_snoc, List.length_append, hfl]; omega
    · simp only [wire_snoc, List.map_append]
      rw [← List.append_assoc, hby, List.take_left' (by simp [hfl]; omega)]
    · exact ht
    · exact hst
    · simpa using hfew
    · exact hn

theorem serialize_spec (x : Ctx) (done : List (List UInt8)) (c : List UInt8) (g : Bool) (h : Inv x done) :
    (Refused x c g ∧ serialize x c g = C.ok (x, none)) ∨
    (¬ Refused x c g ∧ ∃ x', serialize x c g = C.ok (x', some (x.size, 5 + c.length)) ∧ Inv x' (done ++ [c])) := by
  obtain ⟨hb, hs, hf, hu, hby, ht, hst, hfew, hn⟩ := h
  by_cases hbig : 2 ^ 32 ≤ 5 + c.length
  · left
    refine ⟨Or.inl hbig, ?_⟩
    have hb' : U32MAX - 1 - 4 < c.length := by simp only [U32MAX, Nat.reducePow] at *; omega
    simp only [serialize, to_buffer, if_pos hb']
    simp
  have hnb : ¬ (U32MAX - 1 - 4 < c.length) := by simp only [U32MAX, Nat.reducePow] at *; omega
  have e1 : addz x.size (5 + c.length) = x.size + (5 + c.length) :=
    Nat.mod_eq_of_lt (by simp only [Nat.reducePow] at *; omega)
  have e2 : addz x.capacity (LOCALMAX GROW_BY (5 + c.length)) = x.capacity + max 1000 (5 + c.length) := by
    rw [localmax]; exact Nat.mod_eq_of_lt (by simp only [Nat.reducePow] at *; omega)
  by_cases hfit : x.size + (5 + c.length) ≤ x.capacity
  · right
    refine ⟨fun hr => ?_, ?_⟩
    · rcases hr with hr | hr
      · exact hbig hr
      · omega
    have ea : awesome_alloc x (HDR + c.length) g = ({ x with size := x.size + (5 + c.length) }, some x.size) := by
      simp only [awesome_alloc, show HDR + c.length = 5 + c.length from rfl, e1]
      rw [if_pos hfit]; simp
    obtain ⟨m, h1, h2⟩ := serialize_at { x with size := x.size + (5 + c.length) } c x.size done
      (by omega) hb hs hfit rfl hu hby (by simp only; omega) hst (by simp only; omega) hn
    refine ⟨_, ?_, h2⟩
    simp only [serialize, ea, Option.map_some] at h1 ⊢
    rw [h1]
    simp only [C.ok_bind, C.pure_eq, if_neg hnb]
  · have ea : awesome_alloc x (HDR + c.length) g =
        if g = true ∧ x.capacity + max 1000 (5 + c.length) < 2 ^ 63 then
          ({ buffer := x.buffer ++ uninit (max 1000 (5 + c.length)), capacity := x.capacity + max 1000 (5 + c.length),
             size := x.size + (5 + c.length), n_reallocs := (x.n_reallocs + 1) % 2 ^ 32, grown := x.grown + 1 }, some x.size)
        else (x, none) := by
      simp only [awesome_alloc, show HDR + c.length = 5 + c.length from rfl, e1, e2, realloc]
      rw [if_neg hfit]
      by_cases hg : g = true ∧ x.capacity + max 1000 (5 + c.length) < 2 ^ 63
      · rw [if_pos hg, if_pos hg, List.take_of_length_le (by omega), hb]
        simp [Nat.add_sub_cancel_left]
      · rw [if_neg hg, if_neg hg]
    by_cases hg : g = true ∧ x.capacity + max 1000 (5 + c.length) < 2 ^ 63
    · right
      rw [if_pos hg] at ea
      refine ⟨fun hr => ?_, ?_⟩
      · rcases hr with hr | ⟨_, hr | hr⟩
        · exact hbig hr
        · simp [hr] at hg
        · omega
      obtain ⟨m, h1, h2⟩ := serialize_at
        { buffer := x.buffer ++ uninit (max 1000 (5 + c.length)), capacity := x.capacity + max 1000 (5 + c.length),
          size := x.size + (5 + c.length), n_reallocs := (x.n_reallocs + 1) % 2 ^ 32, grown := x.grown + 1 } c x.size done
        (by omega) (by simp [uninit, hb]) hg.2 (by simp only; omega) rfl hu
        (by simp only; rw [List.take_append_of_le_length (by omega)]; exact hby)
        (by simp only; omega) (by simp only; omega) (by simp only; omega)
        (by simp only [hn, Nat.reducePow]; omega)
      refine ⟨_, ?_, h2⟩
      simp only [serialize, ea, Option.map_some] at h1 ⊢
      rw [h1]
      simp only [C.ok_bind, C.pure_eq, if_neg hnb]
    · left
      rw [if_neg hg] at ea
      refine ⟨Or.inr ⟨by omega, ?_⟩, ?_⟩
      · by_cases hgt : g = true
        · right; exact Nat.le_of_not_lt fun hh => hg ⟨hgt, hh⟩
        · left; simpa using hgt
      · simp only [serialize, ea, Option.map_none, to_buffer]
        rw [if_neg hnb, if_neg (by simp), if_neg hnb]
        simp

/-- The whole loop, from any state of the array. -/
theorem run_spec (inputs : List (List UInt8 × Bool)) : ∀ (x : Ctx) (done : List (List UInt8)), Inv x done →
    ∃ x' rs, run x inputs = C.ok (x', rs) ∧ Inv x' (done ++ Spec.accepted inputs rs) ∧ rs.length = inputs.length ∧
      ∀ i c g, inputs[i]? = some (c, g) →
        (∃ o n, rs[i]? = some (some (o, n)) ∧ n = (ConstBuffer.Spec.format c).length ∧
          o = (Spec.wire (done ++ Spec.accepted (inputs.take i) (rs.take i))).length) ∨
        (rs[i]? = some none ∧ (2 ^ 32 ≤ (ConstBuffer.Spec.format c).length ∨ g = false ∨
          2 ^ 63 ≤ (Spec.wire (done ++ Spec.accepted (inputs.take i) (rs.take i))).length + 1000 +
            max 1000 (ConstBuffer.Spec.format c).length)) := by
  induction inputs with
  | nil => intro x done h; exact ⟨x, [], rfl, by simpa [Spec.accepted] using h, rfl, by simp⟩
  | cons a rest ih =>
    obtain ⟨c, g⟩ := a
    intro x done h
    have hu := h.used
    have ht := h.tight
    rcases serialize_spec x done c g h with ⟨hr, h1⟩ | ⟨hr, x1, h1, h2⟩
    · obtain ⟨x', rs, h3, h4, h5, h6⟩ := ih x done h
      refine ⟨x', none :: rs, by simp [run, h1, h3], by simpa [Spec.accepted] using h4, by simp [h5], ?_⟩
      intro i c' g' hi
      match i with
      | 0 =>
        simp only [List.getElem?_cons_zero, Option.some.injEq, Prod.mk.injEq] at hi
        obtain ⟨rfl, rfl⟩ := hi
        right
        refine ⟨rfl, ?_⟩
        rw [format_length]
        simp only [List.take_zero, Spec.accepted, List.append_nil]
        rcases hr with hr | ⟨_, hr | hr⟩
        · exact Or.inl hr
        · exact Or.inr (Or.inl hr)
        · right; right; omega
      | i + 1 =>
        simpa [Spec.accepted] using h6 i c' g' (by simpa using hi)
    · obtain ⟨x', rs, h3, h4, h5, h6⟩ := ih x1 (done ++ [c]) h2
      refine ⟨x', some (x.size, 5 + c.length) :: rs, by simp [run, h1, h3],
        by simpa [Spec.accepted] using h4, by simp [h5], ?_⟩
      intro i c' g' hi
      match i with
      | 0 =>
        simp only [List.getElem?_cons_zero, Option.some.injEq, Prod.mk.injEq] at hi
        obtain ⟨rfl, rfl⟩ := hi
        left
        exact ⟨_, _, rfl, (format_length c).symm, by simpa [Spec.accepted] using hu⟩
      | i + 1 =>
        simpa [Spec.accepted] using h6 i c' g' (by simpa using hi)

/-- C84: whatever the contents are and whenever memory is missing, the loop ends without undefined
behaviour (no write outside the array, no use of uninitialised bytes), gives a result for every
buffer, and the used part of the array is exactly the serializations of the accepted buffers, one
after the other, in order. -/
theorem array_holds (inputs : List (List UInt8 × Bool)) :
    ∃ x rs, run init inputs = C.ok (x, rs) ∧ rs.length = inputs.length ∧
      x.buffer.take x.size = (Spec.wire (Spec.accepted inputs rs)).map some ∧
      x.size = (Spec.wire (Spec.accepted inputs rs)).length ∧
      x.size ≤ x.capacity ∧ x.buffer.length = x.capacity := by
  obtain ⟨x, rs, h1, h2, h3, -⟩ := run_spec inputs init [] inv_init
  rw [List.nil_append] at h2
  exact ⟨x, rs, h1, h3, h2.bytes, h2.used, h2.fits, h2.block⟩

/-- C84: an accepted buffer lies at the end of the accepted ones before it and its reported size is
that of its serialization. -/
theorem placed_at (inputs : List (List UInt8 × Bool)) (x : Ctx) (rs : List (Option (Nat × Nat)))
    (h : run init inputs = C.ok (x, rs)) (i o n : Nat) (hi : rs[i]? = some (some (o, n))) :
    ∃ c g, inputs[i]? = some (c, g) ∧ n = (ConstBuffer.Spec.format c).length ∧
      o = (Spec.wire (Spec.accepted (inputs.take i) (rs.take i))).length := by
  obtain ⟨x', rs', h1, h2, h3, h4⟩ := run_spec inputs init [] inv_init
  rw [h, C.ok.injEq, Prod.mk.injEq] at h1
  obtain ⟨rfl, rfl⟩ := h1
  have hlt : i < inputs.length := by
    rw [← h3]; exact (List.getElem?_eq_some_iff.mp hi).1
  have hin : inputs[i]? = some (inputs[i].1, inputs[i].2) := List.getElem?_eq_getElem hlt
  rcases h4 i _ _ hin with ⟨o', n', h5, h6, h7⟩ | ⟨h5, -⟩
  · rw [hi] at h5
    simp only [Option.some.injEq, Prod.mk.injEq] at h5
    obtain ⟨rfl, rfl⟩ := h5
    exact ⟨_, _, hin, h6, by simpa using h7⟩
  · rw [hi] at h5; simp at h5

/-- C84: a buffer is not accepted only if its serialization does not fit in 32 bits, or memory was
missing when it was its turn, or the array would come near 2^63 bytes. -/
theorem refused_only_if (inputs : List (List UInt8 × Bool)) (x : Ctx) (rs : List (Option (Nat × Nat)))
    (h : run init inputs = C.ok (x, rs)) (i : Nat) (c : List UInt8) (g : Bool) (hc : inputs[i]? = some (c, g))
    (hi : rs[i]? = some none) :
    2 ^ 32 ≤ (ConstBuffer.Spec.format c).length ∨ g = false ∨
      2 ^ 63 ≤ (Spec.wire (Spec.accepted (inputs.take i) (rs.take i))).length + 1000 +
        max 1000 (ConstBuffer.Spec.format c).length := by
  obtain ⟨x', rs', h1, h2, h3, h4⟩ := run_spec inputs init [] inv_init
  rw [h, C.ok.injEq, Prod.mk.injEq] at h1
  obtain ⟨rfl, rfl⟩ := h1
  rcases h4 i c g hc with ⟨o, n, h5, -⟩ | ⟨-, h5⟩
  · rw [hi] at h5; simp at h5
  · simpa using h5

/-- C84: a buffer whose serialization does not fit in 32 bits is never accepted, even if there is
memory. -/
theorem too_big_refused (inputs : List (List UInt8 × Bool)) (x : Ctx) (rs : List (Option (Nat × Nat)))
    (h : run init inputs = C.ok (x, rs)) (c : List UInt8) (hc : c ∈ Spec.accepted inputs rs) :
    (ConstBuffer.Spec.format c).length < 2 ^ 32 := by
  have key : ∀ (inputs : List (List UInt8 × Bool)) (x x' : Ctx) (done : List (List UInt8)) (rs : List (Option (Nat × Nat))),
      Inv x done → run x inputs = C.ok (x', rs) → ∀ c ∈ Spec.accepted inputs rs, 5 + c.length < 2 ^ 32 := by
    intro inputs
    induction inputs with
    | nil => intro x x' done rs _ hr c hc; simp [run] at hr; simp [Spec.accepted] at hc
    | cons a rest ih =>
      obtain ⟨b, g⟩ := a
      intro x x' done rs hI hr c hc
      rcases serialize_spec x done b g hI with ⟨-, h1⟩ | ⟨hn, x1, h1, h2⟩
      · obtain ⟨y, ys, h3, -⟩ := run_spec rest x done hI
        simp only [run, h1, C.ok_bind, h3, C.pure_eq, C.ok.injEq, Prod.mk.injEq] at hr
        obtain ⟨rfl, rfl⟩ := hr
        exact ih x y done ys hI h3 c (by simpa [Spec.accepted] using hc)
      · obtain ⟨y, ys, h3, -⟩ := run_spec rest x1 _ h2
        simp only [run, h1, C.ok_bind, h3, C.pure_eq, C.ok.injEq, Prod.mk.injEq] at hr
        obtain ⟨rfl, rfl⟩ := hr
        simp only [Spec.accepted, List.mem_cons] at hc
        rcases hc with rfl | hc
        · exact Nat.lt_of_not_le fun hh => hn (Or.inl hh)
        · exact ih x1 y _ ys h2 h3 c hc
  rw [format_length]
  exact key inputs init x [] rs inv_init h c hc

theorem accepted_take {ρ : Type} (inputs : List (List UInt8 × Bool)) : ∀ (rs : List (Option ρ)) (i : Nat)
    (c : List UInt8) (g : Bool) (r : ρ), inputs[i]? = some (c, g) → rs[i]? = some (some r) →
    ∃ post, Spec.accepted inputs rs = Spec.accepted (inputs.take i) (rs.take i) ++ c :: post := by
  induction inputs with
  | nil => intro rs i c g r h; simp at h
  | cons a rest ih =>
    intro rs i c g r h1 h2
    match rs, i with
    | [], i => simp at h2
    | r0 :: rs, 0 =>
      simp only [List.getElem?_cons_zero, Option.some.injEq] at h1 h2
      subst h1 h2
      exact ⟨Spec.accepted rest rs, by simp [Spec.accepted]⟩
    | r0 :: rs, i + 1 =>
      simp only [List.getElem?_cons_succ] at h1 h2
      obtain ⟨post, h3⟩ := ih rs i c g r h1 h2
      cases r0 <;> exact ⟨post, by simp [Spec.accepted, h3]⟩

/-- C84: every accepted buffer can be read back: `CONSTBUFFER_from_buffer` at the offset at which it
was put, told any number `size` of bytes between that of the serialization and that of the rest
of the used part, gives the content and consumes exactly the serialization.  `d` is the dialect of
signed shifts (see C09). -/
theorem read_back (d : Dialect) (inputs : List (List UInt8 × Bool)) (x : Ctx)
    (rs : List (Option (Nat × Nat))) (h : run init inputs = C.ok (x, rs)) (i o n : Nat)
    (hi : rs[i]? = some (some (o, n))) (used : List UInt8) (hused : x.buffer.take x.size = used.map some)
    (size : Nat) (hs1 : n ≤ size) (hs2 : size ≤ used.length - o) :
    ∃ c g, inputs[i]? = some (c, g) ∧ ((d = .wrap ∨ c.length < 2 ^ 31) →
      from_buffer d (some (used.drop o)) size true true true = C.ok ⟨.OK, some n, some (some c)⟩) := by
  obtain ⟨c, g, hc, hn, ho⟩ := placed_at inputs x rs h i o n hi
  refine ⟨c, g, hc, fun hd => ?_⟩
  obtain ⟨post, hp⟩ := accepted_take inputs rs i c g _ hc hi
  have hsmall := too_big_refused inputs x rs h c (by rw [hp]; simp)
  obtain ⟨x', rs', h1, -, h3, -⟩ := array_holds inputs
  rw [h, C.ok.injEq, Prod.mk.injEq] at h1
  obtain ⟨rfl, rfl⟩ := h1
  have hu : used = Spec.wire (Spec.accepted inputs rs) := by
    rw [h3] at hused
    exact ((List.map_inj_right (by intro a b hab; simpa using hab)).mp hused).symm
  have hdrop : used.drop o = ConstBuffer.Spec.format c ++ Spec.wire post := by
    rw [hu, hp, ho]
    simp [Spec.wire]
  rw [format_length] at hn hsmall
  simp only [Nat.reducePow] at hsmall hd
  have hlen : used.length - o = 5 + c.length + (Spec.wire post).length := by
    rw [← List.length_drop, hdrop, List.length_append, format_length]
  have hb := format_beVal c (by simp only [Nat.reducePow]; omega)
  have hl := beBytes_length 4 c.length
  have := from_buffer_long d 1 (MemoryData.Spec.beBytes 4 c.length) (c ++ Spec.wire post) size true hl
    (by omega) (by simp; omega) (by rcases hd with h | h; exact Or.inl h; right; rw [hb, hl]; simp only [Nat.reducePow]; omega)
  rw [hb, if_neg (by decide), if_neg (by simp only [HDR]; omega), if_neg (by simp)] at this
  rw [hdrop]
  simp only [ConstBuffer.Spec.format, List.cons_append, List.append_assoc]
  rw [this, Nat.mod_eq_of_lt (by simp only [HDR, Nat.reducePow]; omega), List.take_left, hn]

/-- C84: the array wastes less than 1000 bytes, and the number of times it grew (counted modulo
2^32 by the program) is at most one for every 1000 bytes of the array and at most one per accepted
buffer. -/
theorem growth (inputs : List (List UInt8 × Bool)) (x : Ctx) (rs : List (Option (Nat × Nat)))
    (h : run init inputs = C.ok (x, rs)) :
    x.capacity < x.size + 1000 ∧ 1000 * x.grown ≤ x.capacity ∧
      x.grown ≤ (Spec.accepted inputs rs).length ∧ x.n_reallocs = x.grown % 2 ^ 32 := by
  obtain ⟨x', rs', h1, h2, -⟩ := run_spec inputs init [] inv_init
  rw [h, C.ok.injEq, Prod.mk.injEq] at h1
  obtain ⟨rfl, rfl⟩ := h1
  rw [List.nil_append] at h2
  exact ⟨h2.tight, h2.steps, h2.few, h2.stat⟩

/-- Three buffers; memory is missing for the second, the third fits into what the first left: the
results, the numbers of bytes used and allocated, the number of calls of `realloc`, the bytes. -/
example : (match run init [([7, 8], true), (List.replicate 2000 3, false), ([9], true)] with
    | .ok (x, rs) => rs == [some (0, 7), none, some (7, 6)] && x.size == 13 && x.capacity == 1000 &&
        x.n_reallocs == 1 && x.buffer.take 13 == [some 1, some 0, some 0, some 0, some 2, some 7, some 8,
          some 1, some 0, some 0, some 0, some 1, some 9]
    | .ub => false) = true := by
  decide +kernel

/-- The third buffer of that run is read back. -/
example : from_buffer .wrap (some ([1, 0, 0, 0, 2, 7, 8, 1, 0, 0, 0, 1, 9].drop 7)) 6 true true true =
    C.ok ⟨.OK, some 6, some (some [9])⟩ := by decide +kernel

/-- Two buffers of 600 bytes: both are accepted, the second lies behind the first. -/
example (c1 c2 : List UInt8) (l1 : c1.length = 600) (l2 : c2.length = 600) : ∃ x, run init [(c1, true), (c2, true)] =
    C.ok (x, [some (0, 605), some (605, 605)]) ∧ x.size = 1210 ∧ 1210 ≤ x.capacity ∧ x.capacity < 2210 ∧
      x.grown ≤ 2 := by
  obtain ⟨x, rs, h1, h2, h3, h4, h5, h6⟩ := array_holds [(c1, true), (c2, true)]
  obtain ⟨g1, g2, g3, g4⟩ := growth _ x rs h1
  have r0 := refused_only_if _ x rs h1 0 _ true rfl
  have r1 := refused_only_if _ x rs h1 1 _ true rfl
  have p0 := placed_at _ x rs h1 0
  have p1 := placed_at _ x rs h1 1
  match rs, h2 with
  | [a, b], _ =>
    simp only [List.getElem?_cons_zero, List.getElem?_cons_succ, format_length, l1, l2] at r0 r1 p0 p1
    cases a with
    | none => exact absurd (r0 rfl) (by simp [Spec.accepted, Spec.wire])
    | some a =>
      cases b with
      | none => exact absurd (r1 rfl) (by simp [Spec.accepted, Spec.wire, format_length, l1])
      | some b =>
        obtain ⟨o, n⟩ := a
        obtain ⟨o', n'⟩ := b
        obtain ⟨c, g, e, hn, ho⟩ := p0 o n rfl
        obtain ⟨c', g', e', hn', ho'⟩ := p1 o' n' rfl
        simp only [Option.some.injEq, Prod.mk.injEq] at e e'
        obtain ⟨rfl, rfl⟩ := e
        obtain ⟨rfl, rfl⟩ := e'
        simp only [l1, l2, Spec.accepted, Spec.wire, List.take_zero, List.flatMap_nil, List.length_nil,
          List.take_succ_cons, List.flatMap_cons, List.append_nil, format_length, List.length_append,
          List.length_cons] at hn ho hn' ho' h4 g3
        subst hn ho hn' ho'
        exact ⟨x, h1, h4, by omega, by omega, by omega⟩

end CUtil.SerialArena
