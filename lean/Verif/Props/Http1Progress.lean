import Verif.Http1.Progress
import Verif.Props.Http1Calls

/-!
# Clients of the HTTP/1 parser make progress

C57. The properties of whole messages are about client runs that are `complete`: the parser has finished, failed, or
has processed all bytes. Here: every client that always passes at least one byte (if it has one) gets there.
-/

namespace Verif.Http1

/-- **C57.** Whatever the bytes are and whatever the callbacks answer: a client that passes at least one of its
unread bytes with every call is done after at most `8 * length + 9` calls. (The two exceptions of C12 are the same
here: a new parser must not get an empty message.) -/
theorem C57_client_finishes (h : Handler) (w : World) (msg : Bytes) (ks : List Nat) {st : Stage}
    (hr : Reach anyBoundary st w.p) (hs : st = .fresh → msg ≠ []) (hk : ∀ k ∈ ks, 0 < k)
    (hl : 8 * msg.length + 9 ≤ ks.length) :
    ∃ j ≤ 8 * msg.length + 9, (drive h .idle (ks.take j) w msg).complete := by
  obtain ⟨j, hj, hc⟩ := drive_ends (h := h) (8 * msg.length + 6) .idle st w msg ks hr hs hk (pot_le _ _) (by omega)
  exact ⟨j, by omega, hc⟩

/-- 18 bytes, one at a time, with a pause after every callback: 19 calls are not enough, 20 are. -/
example : ¬ (drive pauses .idle (List.replicate 19 1) ⟨Parser.new, []⟩ b!"GET / HTTP/1.1\r\n\r\n").complete ∧
    (drive pauses .idle (List.replicate 20 1) ⟨Parser.new, []⟩ b!"GET / HTTP/1.1\r\n\r\n").complete ∧
    (drive pauses .idle (List.replicate 20 1) ⟨Parser.new, []⟩ b!"GET / HTTP/1.1\r\n\r\n").last = .finished := by
  decide +kernel

example : ∃ j ≤ 8 * 18 + 9, (drive pauses .idle ((List.replicate 200 1).take j) ⟨Parser.new, []⟩
    b!"GET / HTTP/1.1\r\n\r\n").complete :=
  C57_client_finishes pauses ⟨Parser.new, []⟩ b!"GET / HTTP/1.1\r\n\r\n" (List.replicate 200 1) .new (by decide)
    (fun k hk => by rw [List.eq_of_mem_replicate hk]; decide) (by rw [List.length_replicate]; decide)

end Verif.Http1
