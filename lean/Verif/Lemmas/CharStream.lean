import Verif.Spec.CharStream

/-! # The stream in memory does what the stream should do -/

namespace Over

theorem SM.bind_ok {α β : Type} {m : SM α} {k : α → SM β} {h h' : StreamHeap} {a : α} (hm : m h = .ok (a, h')) :
    (m >>= k) h = k a h' := by
  show SM.bind m k h = _
  unfold SM.bind
  rw [hm]

theorem drop_cons {α : Type} {l r : List α} {n : Nat} {b : α} (h : l.drop n = b :: r) : l[n]? = some b ∧ l.drop (n + 1) = r := by
  refine ⟨?_, ?_⟩
  · have : (l.drop n)[0]? = some b := by rw [h]; rfl
    simpa using this
  · rw [← List.drop_drop, h]; rfl

theorem byte_ok {h : StreamHeap} {it : CharsIter} {bytes r : List UInt8} {b : UInt8} (hb : h.bufs it.buf = some bytes)
    (hd : bytes.drop it.off = b :: r) : it.byte h = .ok ((b, { it with off := it.off + 1 }), h) ∧ bytes.drop (it.off + 1) = r := by
  obtain ⟨h1, h2⟩ := drop_cons hd
  refine ⟨?_, h2⟩
  unfold CharsIter.byte
  rw [SM.bind_ok (a := b) (h' := h)]
  · rfl
  · unfold readByte
    simp only [hb, h1]

theorem char_ok {h : StreamHeap} {n : Nat} {c : Char} (hn : n = c.val.toNat) : charUnchecked n h = .ok (c, h) := by
  subst hn
  unfold charUnchecked
  have hv : c.val.toNat.isValidChar := c.valid
  rw [dif_pos hv]
  rfl

/-- `Chars::next` decodes the next character. -/
theorem chars_next {h : StreamHeap} {it : CharsIter} {bytes r : List UInt8} {c : Char} (hb : h.bufs it.buf = some bytes)
    (hd : bytes.drop it.off = String.utf8EncodeChar c ++ r) (hs : it.off ≠ it.stop) :
    it.next h = .ok ((some c, { it with off := it.off + (String.utf8EncodeChar c).length }), h) := by
  have hv : c.val.toNat < 0x110000 := by
    have := c.valid
    simp only [UInt32.isValidChar, Nat.isValidChar] at this
    omega
  unfold CharsIter.next
  rw [if_neg hs]
  unfold String.utf8EncodeChar at hd ⊢
  dsimp only at hd ⊢
  split at hd
  · rename_i h1
    rw [if_pos h1]
    obtain ⟨e1, -⟩ := byte_ok hb hd
    rw [SM.bind_ok e1]
    dsimp only
    have hx : (UInt8.ofNat c.val.toNat).toNat = c.val.toNat := by rw [UInt8.toNat_ofNat']; omega
    rw [if_pos (by rw [hx]; omega), SM.bind_ok (char_ok hx)]
    rfl
  rename_i h1
  rw [if_neg h1]
  split at hd
  · rename_i h2
    rw [if_pos h2]
    obtain ⟨e1, d1⟩ := byte_ok hb hd
    obtain ⟨e2, -⟩ := byte_ok (it := { it with off := it.off + 1 }) hb d1
    have hx : (UInt8.ofNat (c.val.toNat / 64 % 32 + 192)).toNat = c.val.toNat / 64 % 32 + 192 := by
      simp [UInt8.toNat_ofNat']; omega
    have hy : (UInt8.ofNat (c.val.toNat % 64 + 128)).toNat = c.val.toNat % 64 + 128 := by
      simp [UInt8.toNat_ofNat']; omega
    rw [SM.bind_ok e1]
    dsimp only
    rw [if_neg (by rw [hx]; omega), SM.bind_ok e2]
    dsimp only
    rw [if_pos (by rw [hx]; omega), SM.bind_ok (char_ok (c := c) (by rw [hx, hy]; omega))]
    rfl
  rename_i h2
  rw [if_neg h2]
  split at hd
  · rename_i h3
    rw [if_pos h3]
    obtain ⟨e1, d1⟩ := byte_ok hb hd
    obtain ⟨e2, d2⟩ := byte_ok (it := { it with off := it.off + 1 }) hb d1
    obtain ⟨e3, -⟩ := byte_ok (it := { it with off := it.off + 1 + 1 }) hb d2
    have hx : (UInt8.ofNat (c.val.toNat / 4096 % 16 + 224)).toNat = c.val.toNat / 4096 % 16 + 224 := by
      simp [UInt8.toNat_ofNat']; omega
    have hy : (UInt8.ofNat (c.val.toNat / 64 % 64 + 128)).toNat = c.val.toNat / 64 % 64 + 128 := by
      simp [UInt8.toNat_ofNat']; omega
    have hz : (UInt8.ofNat (c.val.toNat % 64 + 128)).toNat = c.val.toNat % 64 + 128 := by
      simp [UInt8.toNat_ofNat']; omega
    rw [SM.bind_ok e1]
    dsimp only
    rw [if_neg (by rw [hx]; omega), SM.bind_ok e2]
    dsimp only
    rw [if_neg (by rw [hx]; omega), SM.bind_ok e3]
    dsimp only
    rw [if_pos (by rw [hx]; omega), SM.bind_ok (char_ok (c := c) (by rw [hx, hy, hz]; omega))]
    rfl
  · rename_i h3
    rw [if_neg h3]
    obtain ⟨e1, d1⟩ := byte_ok hb hd
    obtain ⟨e2, d2⟩ := byte_ok (it := { it with off := it.off + 1 }) hb d1
    obtain ⟨e3, d3⟩ := byte_ok (it := { it with off := it.off + 1 + 1 }) hb d2
    obtain ⟨e4, -⟩ := byte_ok (it := { it with off := it.off + 1 + 1 + 1 }) hb d3
    have hx : (UInt8.ofNat (c.val.toNat / 262144 % 8 + 240)).toNat = c.val.toNat / 262144 % 8 + 240 := by
      simp [UInt8.toNat_ofNat']; omega
    have hy : (UInt8.ofNat (c.val.toNat / 4096 % 64 + 128)).toNat = c.val.toNat / 4096 % 64 + 128 := by
      simp [UInt8.toNat_ofNat']; omega
    have hz : (UInt8.ofNat (c.val.toNat / 64 % 64 + 128)).toNat = c.val.toNat / 64 % 64 + 128 := by
      simp [UInt8.toNat_ofNat']; omega
    have hw : (UInt8.ofNat (c.val.toNat % 64 + 128)).toNat = c.val.toNat % 64 + 128 := by
      simp [UInt8.toNat_ofNat']; omega
    rw [SM.bind_ok e1]
    dsimp only
    rw [if_neg (by rw [hx]; omega), SM.bind_ok e2]
    dsimp only
    rw [if_neg (by rw [hx]; omega), SM.bind_ok e3]
    dsimp only
    rw [if_neg (by rw [hx]; omega), SM.bind_ok e4]
    dsimp only
    rw [SM.bind_ok (char_ok (c := c) (by rw [hx, hy, hz, hw]; omega))]
    rfl

theorem chars_end {h : StreamHeap} {it : CharsIter} (hs : it.off = it.stop) : it.next h = .ok ((none, it), h) := by
  unfold CharsIter.next
  rw [if_pos hs]
  rfl

theorem utf8_cons (c : Char) (s : Str) : utf8 (c :: s) = String.utf8EncodeChar c ++ utf8 s := by simp [utf8]

theorem utf8Char_pos (c : Char) : 0 < (String.utf8EncodeChar c).length := by
  unfold String.utf8EncodeChar
  dsimp only
  split <;> [skip; split <;> [skip; split]] <;> simp

/-- A `Chars` that has still to yield these characters. -/
structure CharsIter.Yields (it : CharsIter) (bytes : List UInt8) (rem : Str) : Prop where
  stop : it.stop = bytes.length
  le : it.off ≤ bytes.length
  rest : bytes.drop it.off = utf8 rem

theorem CharsIter.Yields.next {it : CharsIter} {bytes : List UInt8} {rem : Str} (hy : it.Yields bytes rem) :
    ∃ it', (∀ h : StreamHeap, h.bufs it.buf = some bytes → it.next h = .ok ((rem.head?, it'), h)) ∧ it'.buf = it.buf ∧
      it'.Yields bytes rem.tail := by
  cases rem with
  | nil =>
    have h1 : it.off = it.stop := by
      have := hy.rest
      simp [utf8] at this
      have := hy.le
      have := hy.stop
      omega
    exact ⟨it, fun _ _ => chars_end h1, rfl, hy⟩
  | cons c rem =>
    have h1 := hy.rest
    rw [utf8_cons] at h1
    have hlen : (bytes.drop it.off).length = (String.utf8EncodeChar c).length + (utf8 rem).length := by rw [h1]; simp
    have hp := utf8Char_pos c
    rw [List.length_drop] at hlen
    have hs := hy.stop
    refine ⟨_, fun _ hb => chars_next hb h1 (by omega), rfl, hs, ?_, ?_⟩
    · show it.off + (String.utf8EncodeChar c).length ≤ _
      omega
    · show bytes.drop (it.off + _) = _
      rw [← List.drop_drop, h1]
      simp

/-- The characters that are still to come. -/
def peekedRest (peeked : Option (Option Char)) (rem : Str) : Str :=
  match peeked with
  | some (some c) => c :: rem
  | _ => rem

/-- The inner state of a stream with the buffer `bytes` is this abstract stream. -/
structure StreamInner.Is (i : StreamInner) (bytes : List UInt8) (s : Stream) : Prop where
  file : i.file = s.file
  line : i.line = s.pos.line
  col : i.col = s.pos.col
  own : i.stream.buf = i.contents
  chars : ∃ rem, i.stream.Yields bytes rem ∧ s.rest = peekedRest i.peeked rem ∧ (i.peeked = some none → rem = [])

theorem StreamInner.Is.peek {i : StreamInner} {bytes : List UInt8} {s : Stream} (hi : i.Is bytes s) :
    ∃ i', (∀ h : StreamHeap, h.bufs i.contents = some bytes → i.peek h = .ok ((s.peek, i'), h)) ∧ i'.Is bytes s ∧
      i'.contents = i.contents := by
  obtain ⟨h1, h2, h3, h4, rem, h5, h6, h7⟩ := hi
  cases hp : i.peeked with
  | some r =>
    rw [hp] at h6 h7
    refine ⟨i, fun h _ => ?_, ⟨h1, h2, h3, h4, rem, h5, by rw [hp]; exact h6, by rw [hp]; exact h7⟩, rfl⟩
    unfold StreamInner.peek
    cases r with
    | none =>
      cases h7 rfl
      simp only [hp, Stream.peek, h6, peekedRest]; rfl
    | some c => simp only [hp, Stream.peek, h6, peekedRest]; rfl
  | none =>
    rw [hp] at h6
    obtain ⟨it', e, hbuf, hy⟩ := h5.next
    refine ⟨{ i with stream := it', peeked := some rem.head? }, fun h hb => ?_, ⟨h1, h2, h3, hbuf.trans h4, rem.tail, hy, ?_, ?_⟩, rfl⟩
    · unfold StreamInner.peek
      simp only [hp]
      rw [SM.bind_ok (e h (by rw [h4]; exact hb))]
      simp only [Stream.peek, h6, peekedRest]; rfl
    · rw [h6]; cases rem <;> rfl
    · cases rem <;> simp

theorem StreamInner.Is.next {i : StreamInner} {bytes : List UInt8} {s : Stream} (hi : i.Is bytes s) :
    ∃ i', (∀ h : StreamHeap, h.bufs i.contents = some bytes → i.next h = .ok ((s.rest.head?, i'), h)) ∧
      i'.Is bytes { s with rest := s.rest.tail } ∧ i'.contents = i.contents := by
  obtain ⟨h1, h2, h3, h4, rem, h5, h6, h7⟩ := hi
  cases hp : i.peeked with
  | some r =>
    rw [hp] at h6 h7
    refine ⟨{ i with peeked := none }, fun h _ => ?_, ⟨h1, h2, h3, h4, rem, h5, ?_, by simp⟩, rfl⟩
    · unfold StreamInner.next
      cases r with
      | none =>
        cases h7 rfl
        simp only [hp, h6, peekedRest]; rfl
      | some c => simp only [hp, h6, peekedRest]; rfl
    · cases r with
      | none => cases h7 rfl; simp [h6, peekedRest]
      | some c => simp [h6, peekedRest]
  | none =>
    rw [hp] at h6
    obtain ⟨it', e, hbuf, hy⟩ := h5.next
    refine ⟨{ i with stream := it' }, fun h hb => ?_, ⟨h1, h2, h3, hbuf.trans h4, rem.tail, hy, ?_, ?_⟩, rfl⟩
    · unfold StreamInner.next
      simp only [hp]
      rw [SM.bind_ok (e h (by rw [h4]; exact hb))]
      simp only [h6, peekedRest]; rfl
    · simp only [h6, hp, peekedRest]
    · simp [hp]

@[simp] theorem setAt_self {α : Type} (f : Nat → Option α) (a : Nat) (x : Option α) : setAt f a x a = x := if_pos rfl
theorem setAt_ne {α : Type} (f : Nat → Option α) {a b : Nat} (x : Option α) (h : b ≠ a) : setAt f a x b = f b := if_neg h
theorem setAt_setAt {α : Type} (f : Nat → Option α) (a : Nat) (x y : Option α) : setAt (setAt f a x) a y = setAt f a y := by
  funext b
  unfold setAt
  split <;> rfl

/-- An exclusive borrow. -/
theorem withMut_ok {α : Type} {a : Nat} {f : StreamInner → SM (α × StreamInner)} {h : StreamHeap} {c : RcCell} {x : α} {i : StreamInner}
    (hc : h.cells a = some c) (hfl : c.flag = .unused)
    (hf : ∀ h' : StreamHeap, h'.bufs = h.bufs → f c.inner h' = .ok ((x, i), h')) :
    withMut a f h = .ok (x, ⟨h.bufs, setAt h.cells a (some { c with inner := i })⟩) := by
  unfold withMut
  simp only [hc, hfl, if_true]
  have := hf ⟨h.bufs, setAt h.cells a (some { c with flag := .writing })⟩ rfl
  have e : (match f c.inner ⟨h.bufs, setAt h.cells a (some { c with flag := .writing })⟩ with
      | MemEnds.ok ((x, inner), h') => MemEnds.ok (x, (⟨h'.bufs, setAt h'.cells a (some { c with inner := inner })⟩ : StreamHeap))
      | MemEnds.panic => MemEnds.panic
      | MemEnds.undefined => MemEnds.undefined) = MemEnds.ok (x, ⟨h.bufs, setAt h.cells a (some { c with inner := i })⟩) := by
    rw [this]
    simp only [setAt_setAt]
  rw [hfl] at e
  exact e

theorem withRef_ok {α : Type} {a : Nat} {f : StreamInner → α} {h : StreamHeap} {c : RcCell}
    (hc : h.cells a = some c) (hfl : c.flag = .unused) : withRef a f h = .ok (f c.inner, h) := by
  unfold withRef
  simp only [hc, hfl]

theorem setAt_get {α : Type} {f : Nat → Option α} {a : Nat} {x : Option α} (h : f a = x) : setAt f a x = f := by
  funext b
  unfold setAt
  split
  · rename_i hb; rw [hb, h]
  · rfl

/-- Setting a number. -/
theorem setNum_ok {a : Nat} {h : StreamHeap} {c : RcCell} (g : StreamInner → StreamInner) (hc : h.cells a = some c) (hfl : c.flag = .unused) :
    withMut a (fun s => (pure ((), g s) : SM (Unit × StreamInner))) h =
      .ok ((), ⟨h.bufs, setAt h.cells a (some { c with inner := g c.inner })⟩) :=
  withMut_ok hc hfl fun _ _ => rfl

/-- The operations on a cell that is an abstract stream. -/
theorem op_ok (op : StreamOp) {a : Nat} {h : StreamHeap} {c : RcCell} {bytes : List UInt8} {s : Stream} (hc : h.cells a = some c)
    (hfl : c.flag = .unused) (hb : h.bufs c.inner.contents = some bytes) (hi : c.inner.Is bytes s) :
    ∃ i, op.run a h = .ok (op.result s, ⟨h.bufs, setAt h.cells a (some { c with inner := i })⟩) ∧ i.Is bytes (op.after s) ∧
      i.contents = c.inner.contents := by
  have same : setAt h.cells a (some { c with inner := c.inner }) = h.cells := setAt_get hc
  cases op with
  | peek =>
    obtain ⟨i, h1, h2, h3⟩ := hi.peek
    refine ⟨i, ?_, h2, h3⟩
    simp only [StreamOp.run, StreamOp.result]
    unfold csPeek
    rw [SM.bind_ok (withMut_ok hc hfl fun h' hh => h1 h' (by rw [hh]; exact hb))]
    rfl
  | file =>
    refine ⟨c.inner, ?_, hi, rfl⟩
    simp only [StreamOp.run, StreamOp.result, same]
    unfold csFile
    rw [SM.bind_ok (withRef_ok hc hfl), hi.file]
    rfl
  | line =>
    refine ⟨c.inner, ?_, hi, rfl⟩
    simp only [StreamOp.run, StreamOp.result, same]
    unfold csLine
    rw [SM.bind_ok (withRef_ok hc hfl), hi.line]
    rfl
  | col =>
    refine ⟨c.inner, ?_, hi, rfl⟩
    simp only [StreamOp.run, StreamOp.result, same]
    unfold csCol
    rw [SM.bind_ok (withRef_ok hc hfl), hi.col]
    rfl
  | next =>
    obtain ⟨i, h1, h2, h3⟩ := hi.next
    have e1 := withMut_ok (f := StreamInner.next) hc hfl fun h' hh => h1 h' (by rw [hh]; exact hb)
    simp only [StreamOp.run, StreamOp.result, StreamOp.after]
    cases hr : s.rest with
    | nil =>
      rw [hr] at e1 h2
      refine ⟨i, ?_, ?_, h3⟩
      · rw [SM.bind_ok (a := none) (h' := ⟨h.bufs, setAt h.cells a (some { c with inner := i })⟩)]
        · simp only [Stream.next, hr]; rfl
        · unfold csNext
          rw [SM.bind_ok e1]
          rfl
      · simp only [Stream.next, hr]
        have : ({ s with rest := ([] : Str).tail } : Stream) = s := by cases s; simp_all
        rw [this] at h2
        exact h2
    | cons ch r =>
      rw [hr] at e1 h2
      have hc1 : (setAt h.cells a (some { c with inner := i })) a = some { c with inner := i } := setAt_self _ _ _
      by_cases hnl : ch = '\n'
      · refine ⟨{ i with line := i.line + 1, col := 1 }, ?_, ?_, h3⟩
        · rw [SM.bind_ok (a := some ch) (h' := ⟨h.bufs, setAt h.cells a (some { c with inner := { i with line := i.line + 1, col := 1 } })⟩)]
          · simp only [Stream.next, hr]; rfl
          · unfold csNext
            rw [SM.bind_ok e1]
            dsimp only [List.head?]
            rw [if_pos hnl]
            unfold csLine csSetLine csSetCol
            have e2 := withRef_ok (f := StreamInner.line) (h := ⟨h.bufs, setAt h.cells a (some { c with inner := i })⟩) hc1 hfl
            have e3 := setNum_ok (h := ⟨h.bufs, setAt h.cells a (some { c with inner := i })⟩)
              (fun s => { s with line := i.line + 1 }) hc1 hfl
            simp only [setAt_setAt] at e3
            have e4 := setNum_ok (h := ⟨h.bufs, setAt h.cells a (some { c with inner := { i with line := i.line + 1 } })⟩)
              (fun s => { s with col := 1 }) (setAt_self _ _ _) hfl
            simp only [setAt_setAt] at e4
            exact (SM.bind_ok e2).trans ((SM.bind_ok e3).trans (SM.bind_ok e4))
        · obtain ⟨g1, g2, g3, g4, g5⟩ := h2
          exact ⟨by simpa [Stream.next, hr] using g1, by simpa [Stream.next, hr, Pos.adv, hnl] using g2, by simp [Stream.next, hr, Pos.adv, hnl], g4,
            by simpa [Stream.next, hr] using g5⟩
      · refine ⟨{ i with col := i.col + 1 }, ?_, ?_, h3⟩
        · rw [SM.bind_ok (a := some ch) (h' := ⟨h.bufs, setAt h.cells a (some { c with inner := { i with col := i.col + 1 } })⟩)]
          · simp only [Stream.next, hr]; rfl
          · unfold csNext
            rw [SM.bind_ok e1]
            dsimp only [List.head?]
            rw [if_neg hnl]
            unfold csCol csSetCol
            have e2 := withRef_ok (f := StreamInner.col) (h := ⟨h.bufs, setAt h.cells a (some { c with inner := i })⟩) hc1 hfl
            have e3 := setNum_ok (h := ⟨h.bufs, setAt h.cells a (some { c with inner := i })⟩)
              (fun s => { s with col := i.col + 1 }) hc1 hfl
            simp only [setAt_setAt] at e3
            exact (SM.bind_ok e2).trans (SM.bind_ok e3)
        · obtain ⟨g1, g2, g3, g4, g5⟩ := h2
          exact ⟨by simpa [Stream.next, hr] using g1, by simpa [Stream.next, hr, Pos.adv, hnl] using g2, by simpa [Stream.next, hr, Pos.adv, hnl] using g3, g4,
            by simpa [Stream.next, hr] using g5⟩

theorem streamAt_snoc (tr : List StreamEvent) (e : StreamEvent) (a : Nat) : streamAt (tr ++ [e]) a = e.effect a (streamAt tr a) := by
  unfold streamAt
  rw [List.foldl_append]
  rfl

/-- What holds at every moment. -/
structure StreamInv (tr : List StreamEvent) (s : StreamSys) : Prop where
  cell : ∀ a c, s.heap.cells a = some c → c.flag = .unused ∧ c.strong = s.owned.count a ∧ 0 < c.strong ∧
    ∃ bytes st, s.heap.bufs c.inner.contents = some bytes ∧ streamAt tr a = some st ∧ c.inner.Is bytes st
  live : ∀ a ∈ s.owned, ∃ c, s.heap.cells a = some c
  inj : ∀ a a' c c', s.heap.cells a = some c → s.heap.cells a' = some c' → c.inner.contents = c'.inner.contents → a = a'
  bufs : ∀ b bytes, s.heap.bufs b = some bytes → ∃ a c, s.heap.cells a = some c ∧ c.inner.contents = b

theorem StreamInv.nil : StreamInv [] ⟨⟨fun _ => none, fun _ => none⟩, 0⟩ :=
  ⟨fun _ _ h => by simp at h, fun _ h => by simp at h, fun _ _ _ _ h => by simp at h, fun _ _ h => by simp at h⟩

theorem StreamInv.opened {tr : List StreamEvent} {s : StreamSys} (hi : StreamInv tr s) {a b : Nat} (file : Option Str) (text : Str)
    (ha : s.heap.cells a = none) (hb : s.heap.bufs b = none) :
    StreamInv (tr ++ [.opened a file text]) ⟨csOpen a b file text s.heap, a ::ₘ s.owned⟩ := by
  have hfresh : a ∉ s.owned := fun h => by
    obtain ⟨c, hc⟩ := hi.live a h
    rw [ha] at hc
    cases hc
  have other : ∀ a' c, s.heap.cells a' = some c → c.inner.contents ≠ b := fun a' c hc he => by
    obtain ⟨-, -, -, bytes, -, h1, -⟩ := hi.cell a' c hc
    rw [he, hb] at h1
    cases h1
  refine ⟨fun a' c hc => ?_, fun a' ha' => ?_, fun a1 a2 c1 c2 h1 h2 he => ?_, fun b' bytes hb' => ?_⟩
  · by_cases e : a' = a
    · subst e
      simp only [csOpen, setAt_self, Option.some.injEq] at hc
      subst hc
      refine ⟨rfl, ?_, Nat.one_pos, utf8 text, .ofString file text, setAt_self _ _ _, ?_, ⟨rfl, rfl, rfl, rfl, text, ⟨rfl, ?_, ?_⟩, rfl, ?_⟩⟩
      · simp [Multiset.count_eq_zero_of_notMem hfresh]
      · rw [streamAt_snoc]
        simp [StreamEvent.effect]
      · simp
      · simp
      · intro h; cases h
    · simp only [csOpen, setAt_ne _ _ e] at hc
      obtain ⟨h1, h2, h3, bytes, st, h4, h5, h6⟩ := hi.cell a' c hc
      refine ⟨h1, ?_, h3, bytes, st, ?_, ?_, h6⟩
      · rw [Multiset.count_cons_of_ne e]; exact h2
      · simp only [csOpen]
        rw [setAt_ne _ _ (other a' c hc)]; exact h4
      · rw [streamAt_snoc]
        simp only [StreamEvent.effect, if_neg (Ne.symm e)]
        exact h5
  · by_cases e : a' = a
    · subst e; exact ⟨_, setAt_self _ _ _⟩
    · obtain ⟨c, hc⟩ := hi.live a' (by simpa [e] using ha')
      exact ⟨c, by simp only [csOpen, setAt_ne _ _ e]; exact hc⟩
  · simp only [csOpen] at h1 h2
    by_cases e1 : a1 = a <;> by_cases e2 : a2 = a
    · rw [e1, e2]
    · subst e1
      rw [setAt_self] at h1
      rw [setAt_ne _ _ e2] at h2
      cases h1
      exact absurd he.symm (other _ _ h2)
    · subst e2
      rw [setAt_self] at h2
      rw [setAt_ne _ _ e1] at h1
      cases h2
      exact absurd he (other _ _ h1)
    · rw [setAt_ne _ _ e1] at h1
      rw [setAt_ne _ _ e2] at h2
      exact hi.inj _ _ _ _ h1 h2 he
  · simp only [csOpen] at hb'
    by_cases e : b' = b
    · subst e
      exact ⟨a, _, setAt_self _ _ _, rfl⟩
    · rw [setAt_ne _ _ e] at hb'
      obtain ⟨a', c, hc, he⟩ := hi.bufs b' bytes hb'
      refine ⟨a', c, ?_, he⟩
      simp only [csOpen]
      rw [setAt_ne _ _ (fun h => by rw [h, ha] at hc; cases hc)]
      exact hc

/-- A cell is replaced by one with the same buffer. -/
theorem StreamInv.replace {tr : List StreamEvent} {s : StreamSys} (hi : StreamInv tr s) {a : Nat} {c c' : RcCell} (e : StreamEvent)
    (owned : Multiset Nat) (hc : s.heap.cells a = some c) (hcont : c'.inner.contents = c.inner.contents) (hfl : c'.flag = .unused)
    (hs : c'.strong = owned.count a) (hp : 0 < c'.strong) (ho : ∀ a', a' ≠ a → owned.count a' = s.owned.count a')
    (he : ∀ a', a' ≠ a → e.effect a' (streamAt tr a') = streamAt tr a')
    (h1 : ∀ bytes st, s.heap.bufs c.inner.contents = some bytes → streamAt tr a = some st → c.inner.Is bytes st →
      ∃ st', e.effect a (streamAt tr a) = some st' ∧ c'.inner.Is bytes st') :
    StreamInv (tr ++ [e]) ⟨⟨s.heap.bufs, setAt s.heap.cells a (some c')⟩, owned⟩ := by
  refine ⟨fun a' d hd => ?_, fun a' ha' => ?_, fun a1 a2 c1 c2 g1 g2 hcc => ?_, fun b' bytes hb' => ?_⟩
  · change setAt s.heap.cells a (some c') a' = some d at hd
    by_cases e' : a' = a
    · subst e'
      rw [setAt_self] at hd
      cases hd
      obtain ⟨-, -, -, bytes, st, h4, h5, h6⟩ := hi.cell a' c hc
      obtain ⟨st', g1, g2⟩ := h1 bytes st h4 h5 h6
      exact ⟨hfl, hs, hp, bytes, st', by rw [hcont]; exact h4, by rw [streamAt_snoc]; exact g1, g2⟩
    · rw [setAt_ne _ _ e'] at hd
      obtain ⟨h1, h2, h3, bytes, st, h4, h5, h6⟩ := hi.cell a' d hd
      exact ⟨h1, by rw [ho a' e']; exact h2, h3, bytes, st, h4, by rw [streamAt_snoc, he a' e']; exact h5, h6⟩
  · by_cases e' : a' = a
    · exact ⟨c', by rw [e']; exact setAt_self _ _ _⟩
    · have : a' ∈ s.owned := by
        rw [← Multiset.count_pos, ← ho a' e', Multiset.count_pos]; exact ha'
      obtain ⟨d, hd⟩ := hi.live a' this
      exact ⟨d, (setAt_ne _ _ e').trans hd⟩
  · have key : ∀ x d, setAt s.heap.cells a (some c') x = some d → ∃ d', s.heap.cells x = some d' ∧ d'.inner.contents = d.inner.contents := by
      intro x d hx
      by_cases e' : x = a
      · subst e'
        rw [setAt_self] at hx
        cases hx
        exact ⟨c, hc, hcont.symm⟩
      · rw [setAt_ne _ _ e'] at hx
        exact ⟨d, hx, rfl⟩
    obtain ⟨d1, k1, k2⟩ := key _ _ g1
    obtain ⟨d2, k3, k4⟩ := key _ _ g2
    exact hi.inj _ _ _ _ k1 k3 (by rw [k2, k4, hcc])
  · obtain ⟨a', d, hd, hdc⟩ := hi.bufs b' bytes hb'
    by_cases e' : a' = a
    · subst e'
      rw [hc] at hd
      cases hd
      exact ⟨a', c', setAt_self _ _ _, by rw [hcont]; exact hdc⟩
    · exact ⟨a', d, (setAt_ne _ _ e').trans hd, hdc⟩

theorem StreamInv.did {tr : List StreamEvent} {s : StreamSys} (hi : StreamInv tr s) {a : Nat} (ha : a ∈ s.owned) (op : StreamOp) :
    ∃ st h, streamAt tr a = some st ∧ op.run a s.heap = .ok (op.result st, h) ∧ StreamInv (tr ++ [.did a op]) ⟨h, s.owned⟩ := by
  obtain ⟨c, hc⟩ := hi.live a ha
  obtain ⟨h1, h2, h3, bytes, st, h4, h5, h6⟩ := hi.cell a c hc
  obtain ⟨i, g1, g2, g3⟩ := op_ok op hc h1 h4 h6
  refine ⟨st, _, h5, g1, hi.replace (c' := { c with inner := i }) _ _ hc g3 h1 h2 h3 (fun _ _ => rfl) (fun a' e' => ?_) ?_⟩
  · simp only [StreamEvent.effect, if_neg (Ne.symm e')]
  · intro bytes' st' k1 k2 k3
    rw [h4] at k1
    cases k1
    exact ⟨op.after st, by simp only [StreamEvent.effect, if_true, h5]; rfl, g2⟩

theorem StreamInv.cloned {tr : List StreamEvent} {s : StreamSys} (hi : StreamInv tr s) {a : Nat} (ha : a ∈ s.owned) :
    ∃ h, csClone a s.heap = .ok ((), h) ∧ StreamInv (tr ++ [.cloned a]) ⟨h, a ::ₘ s.owned⟩ := by
  obtain ⟨c, hc⟩ := hi.live a ha
  obtain ⟨h1, h2, h3, -⟩ := hi.cell a c hc
  refine ⟨⟨s.heap.bufs, setAt s.heap.cells a (some { c with strong := c.strong + 1 })⟩, ?_, ?_⟩
  · unfold csClone
    simp only [hc]
  · refine hi.replace (c' := { c with strong := c.strong + 1 }) _ _ hc rfl h1 ?_ (Nat.succ_pos _) (fun a' e' => ?_) (fun _ _ => rfl) ?_
    · show c.strong + 1 = _
      rw [Multiset.count_cons_self, h2]
    · rw [Multiset.count_cons_of_ne e']
    · exact fun _ st _ k1 k2 => ⟨st, k1, k2⟩

theorem StreamInv.dropped {tr : List StreamEvent} {s : StreamSys} (hi : StreamInv tr s) {a : Nat} (ha : a ∈ s.owned) :
    ∃ h, csDrop a s.heap = .ok ((), h) ∧ StreamInv (tr ++ [.dropped a]) ⟨h, s.owned.erase a⟩ := by
  obtain ⟨c, hc⟩ := hi.live a ha
  obtain ⟨h1, h2, h3, -⟩ := hi.cell a c hc
  by_cases h : c.strong = 1
  · refine ⟨⟨setAt s.heap.bufs c.inner.contents none, setAt s.heap.cells a none⟩, ?_, ?_⟩
    · unfold csDrop
      simp only [hc, h, if_true]
    have hz : (s.owned.erase a).count a = 0 := by rw [Multiset.count_erase_self, ← h2, h]
    have ne : ∀ a' d, setAt s.heap.cells a none a' = some d → a' ≠ a ∧ s.heap.cells a' = some d := fun a' d hd => by
      by_cases e' : a' = a
      · subst e'; rw [setAt_self] at hd; cases hd
      · rw [setAt_ne _ _ e'] at hd; exact ⟨e', hd⟩
    refine ⟨fun a' d hd => ?_, fun a' ha' => ?_, fun a1 a2 c1 c2 g1 g2 hcc => ?_, fun b' bytes hb' => ?_⟩
    · obtain ⟨e', hd⟩ := ne a' d hd
      obtain ⟨k1, k2, k3, bytes, st, k4, k5, k6⟩ := hi.cell a' d hd
      refine ⟨k1, ?_, k3, bytes, st, ?_, by rw [streamAt_snoc]; exact k5, k6⟩
      · rw [Multiset.count_erase_of_ne e']; exact k2
      · show setAt s.heap.bufs c.inner.contents none d.inner.contents = _
        rw [setAt_ne _ _ (fun he => e' (hi.inj _ _ _ _ hd hc he))]
        exact k4
    · have e' : a' ≠ a := fun e' => by
        subst e'
        exact absurd ha' (Multiset.count_eq_zero.mp hz)
      obtain ⟨d, hd⟩ := hi.live a' (Multiset.mem_of_mem_erase ha')
      exact ⟨d, by show setAt s.heap.cells a none a' = _; rw [setAt_ne _ _ e']; exact hd⟩
    · exact hi.inj _ _ _ _ (ne _ _ g1).2 (ne _ _ g2).2 hcc
    · by_cases e : b' = c.inner.contents
      · subst e
        simp only [setAt_self] at hb'
        cases hb'
      · have hb'' : s.heap.bufs b' = some bytes := by rw [← hb']; exact (setAt_ne _ _ e).symm
        obtain ⟨a', d, hd, hdc⟩ := hi.bufs b' bytes hb''
        refine ⟨a', d, ?_, hdc⟩
        show setAt s.heap.cells a none a' = _
        rw [setAt_ne _ _ (fun he => by rw [he, hc] at hd; cases hd; exact e hdc.symm)]
        exact hd
  · refine ⟨⟨s.heap.bufs, setAt s.heap.cells a (some { c with strong := c.strong - 1 })⟩, ?_, ?_⟩
    · unfold csDrop
      simp only [hc, if_neg h]
    · refine hi.replace (c' := { c with strong := c.strong - 1 }) _ _ hc rfl h1 ?_ ?_ (fun a' e' => ?_) (fun _ _ => rfl) ?_
      · show c.strong - 1 = _
        rw [Multiset.count_erase_self, h2]
      · show 0 < c.strong - 1
        omega
      · rw [Multiset.count_erase_of_ne e']
      · exact fun _ st _ k1 k2 => ⟨st, k1, k2⟩

theorem StreamExec.inv {tr : List StreamEvent} {s : StreamSys} (he : StreamExec tr s) : StreamInv tr s := by
  induction he with
  | nil => exact .nil
  | opened a b file text _ ha hb ih => exact ih.opened file text ha hb
  | cloned _ ha hc ih =>
    obtain ⟨h, h1, h2⟩ := ih.cloned ha
    rw [hc] at h1
    cases h1
    exact h2
  | dropped _ ha hc ih =>
    obtain ⟨h, h1, h2⟩ := ih.dropped ha
    rw [hc] at h1
    cases h1
    exact h2
  | @did _ _ _ op _ _ _ ha hc ih =>
    obtain ⟨st, h, -, h1, h2⟩ := ih.did ha op
    rw [hc] at h1
    cases h1
    exact h2

end Over
