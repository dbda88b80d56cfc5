import Verif.Lemmas.CharStream
import Verif.Lemmas.Lex

/-!
# C71: the character stream in memory

`StreamExec tr s`: `s` is reached by opening streams, cloning, using and dropping handles in the order `tr`
(`Model/CharStream.lean`).  `StreamOp.result`, `streamAt`, `StreamEvent.opens`, `StreamEvent.reads` are in `Spec/CharStream.lean`,
`lineAfter`, `colAfter` in `Spec/Location.lean`.
-/

namespace Over

/-- C71: whatever happened before, an operation on a handle that is owned neither panics (borrow checks of the `RefCell`) nor runs into
undefined behaviour (the extended lifetime, unchecked reads, invalid characters), and does what it should do on the one stream that
all clones of the handle share. -/
theorem c71_every_operation (tr : List StreamEvent) (s : StreamSys) (h : StreamExec tr s) (a : Nat) (ha : a ∈ s.owned) (op : StreamOp) :
    ∃ st heap, streamAt tr a = some st ∧ op.run a s.heap = .ok (op.result st, heap) := by
  obtain ⟨st, heap, h1, h2, -⟩ := h.inv.did ha op
  exact ⟨st, heap, h1, h2⟩

/-- C71: nor does cloning or dropping a handle. -/
theorem c71_clone_and_drop (tr : List StreamEvent) (s : StreamSys) (h : StreamExec tr s) (a : Nat) (ha : a ∈ s.owned) :
    (∃ heap, csClone a s.heap = .ok ((), heap)) ∧ ∃ heap, csDrop a s.heap = .ok ((), heap) := by
  obtain ⟨h1, e1, -⟩ := h.inv.cloned ha
  obtain ⟨h2, e2, -⟩ := h.inv.dropped ha
  exact ⟨⟨h1, e1⟩, h2, e2⟩

theorem stream_state (a : Nat) (file : Option Str) (text : Str) : ∀ (tr : List StreamEvent) (n : Nat), (∀ e ∈ tr, e.opens a = false) →
    tr.foldl (StreamEvent.effect a) (some ⟨file, text.drop n, pos0.advs (text.take n)⟩) =
      some ⟨file, text.drop (n + tr.countP (·.reads a)), pos0.advs (text.take (n + tr.countP (·.reads a)))⟩
  | [], n, _ => by simp
  | e :: tr, n, h => by
    have ih := fun n => stream_state a file text tr n fun e he => h e (List.mem_cons_of_mem _ he)
    rw [List.foldl_cons]
    have key : ∀ k, e.effect a (some ⟨file, text.drop n, pos0.advs (text.take n)⟩) =
        some ⟨file, text.drop (n + k), pos0.advs (text.take (n + k))⟩ → (if e.reads a then 1 else 0) = k →
        tr.foldl (StreamEvent.effect a) (e.effect a (some ⟨file, text.drop n, pos0.advs (text.take n)⟩)) =
        some ⟨file, text.drop (n + (e :: tr).countP (·.reads a)), pos0.advs (text.take (n + (e :: tr).countP (·.reads a)))⟩ := by
      intro k h1 h2
      rw [h1, ih (n + k), List.countP_cons, h2, Nat.add_assoc, Nat.add_comm k]
    have h0 := h e (List.mem_cons_self ..)
    cases e with
    | opened a' f t =>
      have : a' ≠ a := by simpa [StreamEvent.opens] using h0
      exact key 0 (by simp [StreamEvent.effect, this]) rfl
    | cloned a' => exact key 0 rfl rfl
    | dropped a' => exact key 0 rfl rfl
    | did a' op =>
      by_cases e' : a' = a
      · subst e'
        cases op with
        | next =>
          refine key 1 ?_ (by simp [StreamEvent.reads])
          simp only [StreamEvent.effect, if_true, Option.map_some, StreamOp.after, Option.some.injEq]
          cases hd : text.drop n with
          | nil =>
            have : text.length ≤ n := List.drop_eq_nil_iff.1 hd
            simp [Stream.next, List.drop_eq_nil_of_le (Nat.le_succ_of_le this), List.take_of_length_le this,
              List.take_of_length_le (Nat.le_succ_of_le this)]
          | cons c r =>
            have h1 : text[n]? = some c := by
              have : (text.drop n)[0]? = some c := by rw [hd]; rfl
              simpa using this
            have h2 : text.drop (n + 1) = r := by rw [← List.drop_drop, hd]; rfl
            simp [Stream.next, h2, List.take_add_one, h1, Pos.advs_append]
        | _ => exact key 0 (by simp [StreamEvent.effect, StreamOp.after]) (by simp [StreamEvent.reads])
      · exact key 0 (by simp [StreamEvent.effect, e']) (by cases op <;> simp [StreamEvent.reads, e'])

/-- C71: what a handle gives: of the text that the stream was opened with, `n` characters have been read (with `next`, through any of the
handles), no matter what was done to other streams; `peek` and `next` give the character number `n` (or nothing, at the end), `line` and
`col` say where it stands, `file` is the name of the file. -/
theorem c71_reads_the_text (tr tr' : List StreamEvent) (s : StreamSys) (a : Nat) (file : Option Str) (text : Str)
    (h : StreamExec (tr ++ .opened a file text :: tr') s) (ho : ∀ e ∈ tr', e.opens a = false) (ha : a ∈ s.owned) :
    (∃ heap, csPeek a s.heap = .ok (text[tr'.countP (·.reads a)]?, heap)) ∧
    (∃ heap, csNext a s.heap = .ok (text[tr'.countP (·.reads a)]?, heap)) ∧
    (∃ heap, csLine a s.heap = .ok (lineAfter (text.take (tr'.countP (·.reads a))), heap)) ∧
    (∃ heap, csCol a s.heap = .ok (colAfter (text.take (tr'.countP (·.reads a))), heap)) ∧
    ∃ heap, csFile a s.heap = .ok (file, heap) := by
  have hst : streamAt (tr ++ .opened a file text :: tr') a =
      some ⟨file, text.drop (tr'.countP (·.reads a)), pos0.advs (text.take (tr'.countP (·.reads a)))⟩ := by
    have := stream_state a file text tr' 0 ho
    simp only [Nat.zero_add] at this
    rw [← this]
    unfold streamAt
    rw [List.foldl_append, List.foldl_cons]
    simp [StreamEvent.effect, Stream.ofString, pos0]
  have inv : ∀ {α : Type} (m : SM α) (f : α → StreamRes) (hf : Function.Injective f) (x : α) (heap : StreamHeap),
      (do return f (← m) : SM StreamRes) s.heap = .ok (f x, heap) → m s.heap = .ok (x, heap) := by
    intro α m f hf x heap he
    change SM.bind m _ s.heap = _ at he
    unfold SM.bind at he
    cases hm : m s.heap with
    | ok r =>
      obtain ⟨y, h'⟩ := r
      rw [hm] at he
      change MemEnds.ok (f y, h') = _ at he
      simp only [MemEnds.ok.injEq, Prod.mk.injEq] at he
      rw [hf he.1, he.2]
    | panic => rw [hm] at he; cases he
    | undefined => rw [hm] at he; cases he
  have hd : ∀ n, (text.drop n).head? = text[n]? := fun n => by simp
  have ops := fun op => c71_every_operation _ _ h a ha op
  refine ⟨?_, ?_, ?_, ?_, ?_⟩
  · obtain ⟨st, heap, h1, h2⟩ := ops .peek
    rw [hst] at h1
    cases h1
    refine ⟨heap, inv _ StreamRes.char (fun _ _ h => by cases h; rfl) _ _ ?_⟩
    rw [← hd]
    exact h2
  · obtain ⟨st, heap, h1, h2⟩ := ops .next
    rw [hst] at h1
    cases h1
    refine ⟨heap, inv _ StreamRes.char (fun _ _ h => by cases h; rfl) _ _ ?_⟩
    refine h2.trans ?_
    rw [← hd]
    simp only [StreamOp.result, Stream.next]
    cases text.drop (tr'.countP (·.reads a)) <;> rfl
  · obtain ⟨st, heap, h1, h2⟩ := ops .line
    rw [hst] at h1
    cases h1
    refine ⟨heap, inv _ StreamRes.num (fun _ _ h => by cases h; rfl) _ _ ?_⟩
    refine h2.trans ?_
    simp only [StreamOp.result, pos_after]
  · obtain ⟨st, heap, h1, h2⟩ := ops .col
    rw [hst] at h1
    cases h1
    refine ⟨heap, inv _ StreamRes.num (fun _ _ h => by cases h; rfl) _ _ ?_⟩
    refine h2.trans ?_
    simp only [StreamOp.result, pos_after]
  · obtain ⟨st, heap, h1, h2⟩ := ops .file
    rw [hst] at h1
    cases h1
    exact ⟨heap, inv _ StreamRes.file (fun _ _ h => by cases h; rfl) _ _ h2⟩

/-- C71: nothing is leaked: when no handle is owned any more, nothing is allocated any more. -/
theorem c71_all_freed (tr : List StreamEvent) (s : StreamSys) (h : StreamExec tr s) (ho : s.owned = 0) (x : Nat) :
    s.heap.cells x = none ∧ s.heap.bufs x = none := by
  have hc : ∀ x, s.heap.cells x = none := fun x => by
    cases hc : s.heap.cells x with
    | none => rfl
    | some c =>
      obtain ⟨-, h2, h3, -⟩ := h.inv.cell x c hc
      rw [ho, Multiset.count_zero] at h2
      omega
  refine ⟨hc x, ?_⟩
  cases hb : s.heap.bufs x with
  | none => rfl
  | some bytes =>
    obtain ⟨a, c, h1, -⟩ := h.inv.bufs x bytes hb
    rw [hc a] at h1
    cases h1

/-- A stream with characters of one, two, three and four bytes, a clone that reads past the newline, the first handle dropped; meanwhile
another stream lives at other addresses: the clone still reads the rest. -/
def sampleEvents : List StreamEvent :=
  [.opened 7 (some c!"f") c!"é\n√😀", .cloned 7, .opened 3 none c!"x", .did 7 .peek, .did 7 .next, .did 7 .next, .did 3 .next, .dropped 7,
    .dropped 3]

example : ∃ s, StreamExec sampleEvents s ∧ s.owned = {7} ∧
    (∃ heap, csNext 7 s.heap = .ok (some '√', heap)) ∧ (∃ heap, csLine 7 s.heap = .ok (2, heap)) ∧
    (∃ heap, csFile 7 s.heap = .ok (some c!"f", heap)) := by
  have e0 := StreamExec.nil
  have e1 := e0.opened 7 5 (some c!"f") c!"é\n√😀" rfl rfl
  have e2 := e1.cloned (a := 7) (by decide) rfl
  have e3 := e2.opened 3 6 none c!"x" rfl rfl
  have e4 := e3.did (a := 7) (op := .peek) (by decide) rfl
  have e5 := e4.did (a := 7) (op := .next) (by decide) rfl
  have e6 := e5.did (a := 7) (op := .next) (by decide) rfl
  have e7 := e6.did (a := 3) (op := .next) (by decide) rfl
  have e8 := e7.dropped (a := 7) (by decide) rfl
  have e9 := e8.dropped (a := 3) (by decide) rfl
  have := c71_reads_the_text [] _ _ 7 _ _ e9 (by decide) (by decide)
  exact ⟨_, e9, by decide, this.2.1, this.2.2.1, this.2.2.2.2⟩

/-- After dropping the last handle nothing is left. -/
example (s : StreamSys) (h : StreamExec sampleEvents s) (ho : s.owned = {7}) (heap : StreamHeap) (hd : csDrop 7 s.heap = .ok ((), heap)) :
    heap.cells 7 = none ∧ heap.bufs 5 = none :=
  have e := h.dropped (a := 7) (by rw [ho]; decide) hd
  have h0 : s.owned.erase 7 = 0 := by rw [ho]; decide
  ⟨(c71_all_freed _ _ e h0 7).1, (c71_all_freed _ _ e h0 5).2⟩

end Over
