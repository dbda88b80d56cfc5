import Verif.Lemmas.Safe4
import Verif.Lemmas.Fuel
import Mathlib.Data.List.TakeWhile

/-!
# The entry points
-/

namespace Over

theorem FS.sizeExcl_le (fs : FS) (stack : List Str) : fs.sizeExcl stack ≤ fs.size := by
  rw [show fs.size = (fs.nodes.map nodeLen).sum from rfl]
  simp only [FS.sizeExcl]
  generalize fs.nodes = l
  induction l with
  | nil => simp
  | cons e l ih =>
    by_cases h : (!stack.contains e.1) = true
    · rw [List.filter_cons, if_pos h]
      simp only [List.map_cons, List.sum_cons]
      omega
    · rw [List.filter_cons, if_neg h]
      simp only [List.map_cons, List.sum_cons]
      omega

/-- Panics are not tolerated. -/
@[reducible] def noPanic : PanicOk := ⟨False⟩
/-- Panics are tolerated. -/
@[reducible] def anyPanic : PanicOk := ⟨True⟩

section
variable [Unicode] [PanicOk]

/-- The environment of a text without a name. -/
def Env.text (contents : Str) : Env := ⟨none, contents, none, []⟩
/-- The environment of a main file. -/
def Env.main (path contents full : Str) : Env := ⟨some path, contents, some full, []⟩

omit [Unicode] in
theorem envOk_text (fs : FS) (contents : Str) : EnvOk fs (.text contents) := ⟨rfl, rfl⟩

omit [PanicOk] in
theorem at_init (file : Option Str) (contents : Str) (rt : Rt) (cur : Option Str) :
    At ⟨file, contents, cur, []⟩ (PState.init file contents rt) :=
  ⟨rfl, Here.start contents, rfl, by intro e he; simp [PState.init] at he,
    by intro e he; simp [PState.init] at he⟩

theorem fromStrFuel_spec (fs : FS) (n : Nat) (contents : Str) (rt : Rt)
    (hn : contents.length + fs.size ≤ n) :
    wp (parseObjStream (parseValue fs n)) (PState.init none contents rt)
      (fun o _ => GoodObj o ∧ ∃ d, SpDoc d contents) (ErrOk fs (none, contents)) := by
  refine wp_mono (parseObjStream_spec (env := .text contents) (envOk_text fs contents) (.inl ⟨rfl, rfl⟩)
    (parseValue_ok fs (none, contents) n) (at_init none contents rt none) ?_) ?_ (fun _ h => h)
  · show contents.length + _ ≤ _
    have := fs.sizeExcl_le (Env.text contents).stack
    omega
  · rintro o s' ⟨-, h1, -, h2⟩
    exact ⟨h1, h2⟩

omit [Unicode] [PanicOk] in
theorem read_resolve {fs : FS} {path contents : Str} (h : fs.read path = .ok contents) :
    ∃ c, fs.resolve path = some c := by
  simp only [FS.read] at h
  cases hr : fs.resolve path with
  | none => rw [hr] at h; cases h
  | some c => exact ⟨c, rfl⟩

theorem fromFileFuel_spec (fs : FS) (n : Nat) (path contents full : Str) (rt : Rt)
    (hres : fs.resolve path = some full)
    (hu : fs.utf8 full = true ∨ PanicOk.allowed) (hn : contents.length + fs.size ≤ n) :
    wp (parseObjStream (parseValue fs n)) (PState.init (some path) contents rt)
      (fun o _ => GoodObj o ∧ ∃ d, SpDoc d contents) (ErrOk fs (some path, contents)) := by
  refine wp_mono (parseObjStream_spec (env := .main path contents full) ?_ (.inl ⟨rfl, rfl⟩)
    (parseValue_ok fs _ n) (at_init (some path) contents rt _) ?_) ?_ (fun _ h => h)
  · exact ⟨full, hres, hu, rfl, by simp [Env.main]⟩
  · show contents.length + _ ≤ _
    have := fs.sizeExcl_le (Env.main path contents full).stack
    omega
  · rintro o s' ⟨-, h1, -, h2⟩
    exact ⟨h1, h2⟩

end

/-! ## Positions -/

theorem linesOf_ne_nil (text : Str) : linesOf text ≠ [] := by
  cases text with
  | nil => simp [linesOf]
  | cons c r =>
    simp only [linesOf]
    split
    · simp
    · split <;> simp

theorem linesOf_cons {c : Char} (h : c ≠ '\n') (r : Str) : ∃ l ls, linesOf r = l :: ls ∧
    linesOf (c :: r) = (c :: l) :: ls := by
  cases hl : linesOf r with
  | nil => exact absurd hl (linesOf_ne_nil r)
  | cons l ls => exact ⟨l, ls, rfl, by simp [linesOf, h, hl]⟩

/-- Number of characters after the last newline. -/
def tailLen (s : Str) : Nat := (s.reverse.takeWhile (fun c => c != '\n')).length

theorem tailLen_cons (c : Char) (s : Str) :
    tailLen (c :: s) = if '\n' ∈ s ∨ c = '\n' then tailLen s else tailLen s + 1 := by
  simp only [tailLen, List.reverse_cons, List.takeWhile_append]
  by_cases h : '\n' ∈ s
  · have : (List.takeWhile (fun c => c != '\n') s.reverse).length ≠ s.reverse.length := by
      intro he
      have := List.takeWhile_prefix (fun c => c != '\n') (l := s.reverse)
      have h2 := this.eq_of_length he
      have h3 : '\n' ∈ List.takeWhile (fun c => c != '\n') s.reverse := by rw [h2]; simpa using h
      have := List.mem_takeWhile_imp h3
      simp at this
    rw [if_neg this]; simp [h]
  · have : List.takeWhile (fun c => c != '\n') s.reverse = s.reverse := by
      rw [List.takeWhile_eq_self_iff]
      intro x hx
      simp only [bne_iff_ne, ne_eq]
      rintro rfl; exact h (by simpa using hx)
    by_cases hc : c = '\n' <;> simp [h, hc, this]

theorem linesOf_pos (pre : Str) : ∀ post, ∃ line, (linesOf (pre ++ post))[pre.count '\n']? = some line ∧
    tailLen pre ≤ line.length ∧ (∀ c r, post = c :: r → c ≠ '\n' → tailLen pre < line.length) := by
  induction pre with
  | nil =>
    intro post
    cases hl : linesOf post with
    | nil => exact absurd hl (linesOf_ne_nil post)
    | cons l ls =>
      refine ⟨l, by simp [hl], by simp [tailLen], ?_⟩
      rintro c r rfl hc
      obtain ⟨l', ls', h1, h2⟩ := linesOf_cons hc r
      rw [h2] at hl
      simp only [List.cons.injEq] at hl
      rw [← hl.1]; simp [tailLen]
  | cons c pre ih =>
    intro post
    obtain ⟨line, h1, h2, h3⟩ := ih post
    rw [tailLen_cons]
    by_cases hc : c = '\n'
    · subst hc
      exact ⟨line, by simpa [linesOf] using h1, by simpa using h2, by simpa using h3⟩
    · obtain ⟨l, ls, h4, h5⟩ := linesOf_cons hc (pre ++ post)
      rw [h4] at h1
      by_cases hp : '\n' ∈ pre
      · refine ⟨line, ?_, by simpa [hp] using h2, by simpa [hp] using h3⟩
        have : pre.count '\n' ≠ 0 := by
          intro h; exact (List.count_eq_zero.1 h) hp
        obtain ⟨k, hk⟩ := Nat.exists_eq_succ_of_ne_zero this
        rw [List.cons_append, h5, List.count_cons_of_ne (by simpa using hc), hk]
        rw [hk] at h1
        simpa using h1
      · have h0 : pre.count '\n' = 0 := List.count_eq_zero.2 hp
        rw [h0] at h1
        simp only [List.getElem?_cons_zero, Option.some.injEq] at h1
        subst h1
        refine ⟨c :: l, ?_, ?_, ?_⟩
        · rw [List.cons_append, h5, List.count_cons_of_ne (by simpa using hc), h0]; rfl
        · simp only [hp, hc, or_self, if_false, List.length_cons]; omega
        · intro d r hd hne
          have := h3 d r hd hne
          simp only [hp, hc, or_self, if_false, List.length_cons]; omega

theorem PosIn.lineColIn {text : Str} {l c : Nat} (h : PosIn text l c) : LineColIn text l c := by
  obtain ⟨pre, post, rfl, rfl, rfl⟩ := h
  obtain ⟨line, h1, h2, -⟩ := linesOf_pos pre post
  refine ⟨by simp [lineAfter], line, ?_, ?_⟩
  · simpa [lineAfter] using h1
  · simp only [colAfter]; simp only [tailLen] at h2; omega

theorem CharAt.posIn {text : Str} {ch : Char} {l c : Nat} (h : CharAt text ch l c) : PosIn text l c := by
  obtain ⟨pre, post, h1, h2, h3⟩ := h
  exact ⟨pre, _, h1, h2, h3⟩

theorem CharAtOrNewline.lineColIn {text : Str} {ch : Char} {l c : Nat} (h : CharAtOrNewline text ch l c) :
    LineColIn text l c := by
  rcases h with ⟨-, h⟩ | ⟨rfl, rfl, pre, post, h1, h2⟩
  · exact h.posIn.lineColIn
  · have : PosIn text l 1 := ⟨pre ++ ['\n'], post, by simp [h1], by simp [h2, lineAfter]; omega,
      by simp [colAfter]⟩
    obtain ⟨h3, line, h4, h5⟩ := this.lineColIn
    exact ⟨h3, line, h4, by omega⟩

end Over
