import Verif.Http1.ChunkProgramRun
import Verif.Props.Http1Form

/-!
# C88: the program that reads a chunk-encoded body

The program of tests/http1_chunk_encoded.rs, on every well-formed request with a chunk-encoded body.
-/

namespace Verif.Http1

/-- What the program stores of an extension: its name in lower case and its value. -/
def Extension.text (e : Extension) : Bytes := Verif.lower e.name ++ e.value.elim [] ExtValue.meaning

theorem chunk_count (x : ChunkedBody) (hx : x.OK) : x.chunks.length ≤ x.write.length := by
  have : ∀ cs : List Chunk, cs.length ≤ (cs.flatMap Chunk.write).length := by
    intro cs
    induction cs with
    | nil => simp
    | cons c cs ih =>
      rw [List.flatMap_cons, List.length_append, List.length_cons]
      have : 1 ≤ c.write.length := by simp [Chunk.write]; omega
      omega
  have := this x.chunks
  simp only [ChunkedBody.write, List.length_append]
  omega

/-- **C88 (partial).** For every well-formed request and chunk-encoded body the program does not panic. After each call for
a chunk it has stored the length, the data and the extensions of exactly this chunk and no trailers, and after the last
call exactly the trailers, each name with its last value. Missing: the heads of C25 and the bodies of C32. -/
theorem C88_chunks_partial (x : Request) (hx : x.OK) (y : ChunkedBody) (hy : y.OK) (rest : Bytes) :
    ∃ L r, Chunks.program (x.write ++ (y.write ++ rest)) = some (L ++ [r]) ∧
      List.Forall₂ (fun s c => s.length = c.data.length ∧ s.data = c.data ∧ s.fields.headers = [] ∧
        s.extensions = c.extensions.flatMap Extension.text) L y.chunks ∧
      r.length = 0 ∧ r.data = [] ∧ r.extensions = [] ∧ ∀ n, r.fields.headers.get n = lastText y.trailers n := by
  obtain ⟨k, w, h1, h2, -, -⟩ := head_call x hx (y.write ++ rest)
  have hn := chunk_count y hy
  obtain ⟨L, r, h3, h4, h5⟩ := Chunks.entries_read y hy rest y.chunks.length 0
    ((x.write ++ (y.write ++ rest)).length + 1) .new (by omega) (by simp only [List.length_append]; omega)
    ⟨rfl, rfl, rfl, rfl, rfl, rfl⟩
  refine ⟨L, r, ?_, h4, h5⟩
  unfold Chunks.program
  rw [h1]
  simp only
  rw [h2]
  exact h3

/-- The body of C32. -/
example : exForm.OK ∧ exBody.OK ∧
    (Chunks.program (exForm.write ++ (exBody.write ++ b!"rest"))).map (·.map fun s => (s.length, s.data)) =
      some (exBody.chunks.map (fun c => (c.data.length, c.data)) ++ [(0, [])]) :=
  ⟨exForm_ok, exBody_ok, by decide +kernel⟩

/-- The full C88 fails: extensions of the last chunk and sizes with a leading zero make the program panic, and a trailer
without a name changes the one before it. -/
theorem C88_fails :
    Chunks.program (exForm.write ++ b!"1\r\na\r\n0;a=b\r\n\r\n") = none ∧
    Chunks.program (exForm.write ++ b!"01\r\na\r\n0\r\n\r\n") = none ∧
    (Chunks.program (exForm.write ++ b!"0\r\nA: b\r\n: c\r\n\r\n")).map (·.map fun s => s.fields.headers) =
      some [[(b!"a", b!"bc")]] := by
  refine ⟨?_, ?_, ?_⟩ <;> decide +kernel

end Verif.Http1
