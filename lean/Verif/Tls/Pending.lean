import Verif.Tls.FrameProps

/-! # When the deframer has nothing pending -/

namespace Tlsn

/-- **C37** `has_pending` is false exactly if the bytes that were read from the source are the frames that the owner has taken: no frame
is queued and no part of a frame is in the buffer. -/
theorem C37_pending (stream : Bytes) (ops : List DeframeOp) :
    (deframeRun stream ops).d.hasPending = false ↔
      ∃ n, n ≤ stream.length ∧ (deframeRun stream ops).source = stream.drop n ∧ Deframed (stream.take n) (deframeRun stream ops).taken false [] := by
  obtain ⟨n, h1, h2, h3⟩ := deframeRun_inv stream ops
  obtain ⟨n', h1', h2', h3'⟩ := C37_deframed stream ops
  have hn : ∀ m, m ≤ stream.length → (deframeRun stream ops).source = stream.drop m → m = n := by
    intro m hm he
    have := congrArg List.length (he.symm.trans h2)
    simp only [List.length_drop] at this
    omega
  obtain rfl := hn n' h1' h2'
  have hu : (deframeRun stream ops).d.hasPending = false ↔
      (deframeRun stream ops).d.frames = [] ∧ (deframeRun stream ops).d.buf.take (deframeRun stream ops).d.used = [] := by
    have hl := h3.used
    have hb := h3.len
    simp only [Deframer.hasPending, Bool.or_eq_false_iff, Bool.not_eq_false', List.isEmpty_iff, decide_eq_false_iff_not, List.take_eq_nil_iff]
    refine and_congr_right fun _ => ⟨fun h => .inl (by omega), ?_⟩
    rintro (h | h)
    · omega
    · rw [h] at hb
      simp only [List.length_nil] at hb
      omega
  rw [hu]
  constructor
  · rintro ⟨e1, e2⟩
    rw [e1, e2, List.append_nil] at h3'
    refine ⟨n', h1', h2', ?_⟩
    cases hd : (deframeRun stream ops).d.desynced with
    | false => rw [← hd]; exact h3'
    | true =>
      obtain ⟨t, v, l, body, hh, -⟩ := h3'.illegal hd
      simp [HasHeader] at hh
  · rintro ⟨m, m1, m2, m3⟩
    obtain rfl := hn m m1 m2
    obtain ⟨e1, -, e3⟩ := C37_unique _ _ _ _ _ _ _ h3' m3
    exact ⟨by simpa using e1, e3⟩

/-- A frame and a part of the next; then the frame is taken; and the rest arrives and is taken. -/
example : (deframeRun [0x17, 3, 3, 0, 1, 9, 0x17, 3, 3, 0, 1, 8] [.read 8]).d.hasPending = true ∧
    (deframeRun [0x17, 3, 3, 0, 1, 9, 0x17, 3, 3, 0, 1, 8] [.read 8, .pop]).d.hasPending = true ∧
    (deframeRun [0x17, 3, 3, 0, 1, 9, 0x17, 3, 3, 0, 1, 8] [.read 8, .pop, .read 4, .pop]).d.hasPending = false := by
  decide +kernel

end Tlsn
