import Verif.Conformance.Http1Base
import Verif.Conformance.Util
import Verif.Http1.ChunkProgram
import Verif.Http1.UrlProgram

/-!
# The tests in /repo/tests, run on the model

Nothing here is a proof about the code; the tests of the repository say what its authors saw the code do, and the model
does the same. Of tests/http1_data/multipart.dat only the first 853 bytes are used.
-/

namespace Verif.Conformance.Integration

open Verif.Http1 Verif.Conformance.Http1

/-- tests/http1_data/multipart.dat, the head. -/
def multipartHead : Bytes :=
  b!"POST /multipart HTTP/1.1\r\n" ++
  b!"Host: localhost\r\n" ++
  b!"Connection: keep-alive\r\n" ++
  b!"Content-Length: 101106\r\n" ++
  b!"Cache-Control: max-age=0\r\n" ++
  b!"Origin: null\r\n" ++
  b!"Upgrade-Insecure-Requests: 1\r\n" ++
  b!"User-Agent: Mozilla/5.0 (Macintosh; Intel Mac OS X 10_12_1) AppleWebKit/537.36 (KHTML, like Geck" ++
  b!"o) Chrome/54.0.2840.87 Safari/537.36\r\n" ++
  b!"Content-Type: multipart/form-data; boundary=----WebKitFormBoundaryPplB3C4KqDmwKzm4\r\n" ++
  b!"Accept: text/html,application/xhtml+xml,application/xml;q=0.9,image/webp,*/*;q=0.8\r\n" ++
  b!"Accept-Encoding: gzip, deflate, br\r\n" ++
  b!"Accept-Language: en-US,en;q=0.8\r\n" ++
  b!"\r\n"

/-- tests/http1_data/multipart.dat, up to the first header field of the third part. -/
def multipartBody : Bytes :=
  b!"------WebKitFormBoundaryPplB3C4KqDmwKzm4\r\n" ++
  b!"Content-Disposition: form-data; name=\"first_name\"\r\n" ++
  b!"\r\n" ++
  b!"Ada\r\n" ++
  b!"------WebKitFormBoundaryPplB3C4KqDmwKzm4\r\n" ++
  b!"Content-Disposition: form-data; name=\"last_name\"\r\n" ++
  b!"\r\n" ++
  b!"Lovelace\r\n" ++
  b!"------WebKitFormBoundaryPplB3C4KqDmwKzm4\r\n" ++
  b!"Content-Disposition: form-data; name=\"file1\"; filename=\"rust-slide.jpg\"\r\n"

/-- tests/http1_data/chunk_encoded.dat, the head. -/
def chunkHead : Bytes :=
  b!"POST /multipart HTTP/1.1\r\n" ++
  b!"Host: localhost\r\n" ++
  b!"Connection: keep-alive\r\n" ++
  b!"Content-Length: 101106\r\n" ++
  b!"Cache-Control: max-age=0\r\n" ++
  b!"Origin: null\r\n" ++
  b!"Upgrade-Insecure-Requests: 1\r\n" ++
  b!"User-Agent: Mozilla/5.0 (Macintosh; Intel Mac OS X 10_12_1) AppleWebKit/537.36 (KHTML, like Geck" ++
  b!"o) Chrome/54.0.2840.87 Safari/537.36\r\n" ++
  b!"Accept: text/html,application/xhtml+xml,application/xml;q=0.9,image/webp,*/*;q=0.8\r\n" ++
  b!"Accept-Encoding: gzip, deflate, br\r\n" ++
  b!"Accept-Language: en-US,en;q=0.8\r\n" ++
  b!"\r\n"

/-- tests/http1_data/chunk_encoded.dat, the body. -/
def chunkBody : Bytes :=
  b!"17\r\n" ++
  b!"This is the first chunk\r\n" ++
  b!"18; gzip; bzip; tar; extension=\"complex\"\r\n" ++
  b!"This is the second chunk\r\n" ++
  b!"0\r\n" ++
  b!"Trailer1: This is trailer 1\r\n" ++
  b!"Trailer2: This is trailer 2\r\n" ++
  b!"\r\n"

/-- tests/http1_data/url_encoded.dat, the head. -/
def urlHead : Bytes :=
  b!"POST /url-encoded HTTP/1.1\r\n" ++
  b!"Host: localhost\r\n" ++
  b!"Connection: keep-alive\r\n" ++
  b!"Content-Length: 54\r\n" ++
  b!"Cache-Control: max-age=0\r\n" ++
  b!"Origin: null\r\n" ++
  b!"Upgrade-Insecure-Requests: 1\r\n" ++
  b!"User-Agent: Mozilla/5.0 (Macintosh; Intel Mac OS X 10_12_1) AppleWebKit/537.36 (KHTML, like Geck" ++
  b!"o) Chrome/54.0.2840.87 Safari/537.36\r\n" ++
  b!"Content-Type: application/x-www-form-urlencoded\r\n" ++
  b!"Accept: text/html,application/xhtml+xml,application/xml;q=0.9,image/webp,*/*;q=0.8\r\n" ++
  b!"Accept-Encoding: gzip, deflate, br\r\n" ++
  b!"Accept-Language: en-US,en;q=0.8\r\n" ++
  b!"\r\n"

/-- tests/http1_data/url_encoded.dat, the body. -/
def urlBody : Bytes :=
  b!"first_name=Ada&last_name=Lovelace&age=36&gender=Female\r\n"

/-- A buffered pair, and the pairs that were stored: the handlers of all four tests collect names and values in this
way, for example tests/http1_head.rs lines 36-83. `named` says that the last callback was one with a value. -/
structure Pairs where
  name : Bytes := []
  value : Bytes := []
  named : Bool := false
  stored : List (Bytes × Bytes) := []

/-- Store a name and its value, if both are there. tests/http1_head.rs lines 36-56. -/
def Pairs.flush (s : Pairs) : Pairs :=
  { s with
    name := [], value := [],
    stored := if s.name ≠ [] ∧ s.value ≠ [] then s.stored ++ [(s.name, s.value)] else s.stored }

/-- The callbacks for names and values. tests/http1_head.rs lines 60-83. -/
def Pairs.on (s : Pairs) : Ev → Pairs
  | .headerName d | .urlEncodedName d =>
    let s := if s.named then s.flush else s
    { s with name := s.name ++ d, named := false }
  | .headerValue d | .urlEncodedValue d => { s with value := s.value ++ d, named := true }
  | .headersFinished | .bodyFinished => s.flush
  | _ => s

/-- The pairs that the handler has stored after some callbacks. -/
def pairs (log : List Ev) : List (Bytes × Bytes) := (log.foldl Pairs.on {}).stored

/-- A handler whose callbacks of a kind return `false`, except for the first one (tests/http1_multipart.rs lines
154-165, tests/http1_chunk_encoded.rs lines 62-73). -/
def again (k : Kind) : Handler :=
  ⟨fun log => match log.getLast? with
    | some e => !(kind e == k && decide (1 < (log.filter fun e => kind e == k).length))
    | none => true, fun _ => none⟩

/-- A call that is expected to end like this; the callbacks it has made, and the parser and the bytes after it. -/
def step (h : Handler) (e : Nat → Success) (p : Parser) (old : List Ev) (s : Bytes) :
    Option (List Ev × Parser × List Ev × Bytes) :=
  match resume h ⟨p, old⟩ s with
  | (.ok r, w) =>
    let n := match r with | .callback n => n | .eos n => n | .finished n => n
    if r = e n then some (w.log.drop old.length, w.p, w.log, s.drop n) else none
  | _ => none

/-- `head`, tests/http1_head.rs lines 104-190. -/
example : (match step debug .finished .new [] (multipartHead ++ multipartBody) with
    | some (es, _, _, s) =>
      s == multipartBody && bytesOf .method es == b!"POST" && bytesOf .url es == b!"/multipart" &&
      numOf .major es == 1 && numOf .minor es == 1 &&
      [(b!"accept", b!"text/html,application/xhtml+xml,application/xml;q=0.9,image/webp,*/*;q=0.8"),
       (b!"accept-encoding", b!"gzip, deflate, br"), (b!"accept-language", b!"en-US,en;q=0.8"),
       (b!"cache-control", b!"max-age=0"), (b!"connection", b!"keep-alive"), (b!"content-length", b!"101106"),
       (b!"content-type", b!"multipart/form-data; boundary=----WebKitFormBoundaryPplB3C4KqDmwKzm4"),
       (b!"host", b!"localhost"), (b!"origin", b!"null"),
       (b!"user-agent", b!"Mozilla/5.0 (Macintosh; Intel Mac OS X 10_12_1) AppleWebKit/537.36 (KHTML, like Gecko) Chrome/54.0.2840.87 Safari/537.36"),
       (b!"upgrade-insecure-requests", b!"1")].all (pairs es).contains
    | none => false) = true := by decide +kernel

/-- `multipart`, tests/http1_multipart.rs lines 174-325, up to the end of the second part. -/
example : (match Verif.Conformance.Util.field 3
      b!"multipart/form-data; boundary=----WebKitFormBoundaryPplB3C4KqDmwKzm4" (c! ';') true with
    | [_, .returns (some (n, some b)) [], .returns none []] =>
      n == b!"boundary" &&
      (match step (again .multipartBegin) .callback ((Parser.new.init .multipart).setBoundary b) [] multipartBody with
      | some (es, p, log, s) =>
        pairs es == [(b!"content-disposition", b!"form-data; name=\"first_name\"")] &&
        bytesOf .multipartData es == b!"Ada" &&
        (match step (again .multipartBegin) .callback p log s with
        | some (es, _, _, _) =>
          pairs es == [(b!"content-disposition", b!"form-data; name=\"last_name\"")] &&
          bytesOf .multipartData es == b!"Lovelace"
        | none => false)
      | none => false)
    | _ => false) = true := by decide +kernel

/-- `chunk_encoded_body`, tests/http1_chunk_encoded.rs lines 132-263. -/
example : (match step debug .finished .new [] (chunkHead ++ chunkBody) with
    | some (_, _, _, s) =>
      (match step (again .chunkBegin) .callback (Parser.new.init .chunked) [] s with
      | some (es, p, log, s) =>
        pairs es == [] && numOf .chunkLength es == 23 && bytesOf .chunkData es == b!"This is the first chunk" &&
        (match step (again .chunkBegin) .callback p log s with
        | some (es, p, log, s) =>
          es.flatMap (fun | .chunkExtensionName d => d | .chunkExtensionValue d => d | _ => []) ==
            b!"gzipbziptarextensioncomplex" &&
          pairs es == [] && numOf .chunkLength es == 24 && bytesOf .chunkData es == b!"This is the second chunk" &&
          (match step (again .chunkBegin) .finished p log s with
          | some (es, _, _, _) =>
            numOf .chunkLength es == 0 && bytesOf .chunkData es == [] &&
            pairs es == [(b!"trailer1", b!"This is trailer 1"), (b!"trailer2", b!"This is trailer 2")]
          | none => false)
        | none => false)
      | none => false)
    | none => false) = true := by decide +kernel

/-- `url_encoded`, tests/http1_url_encoded.rs lines 83-134. -/
example : (match step debug .finished .new [] (urlHead ++ urlBody) with
    | some (_, _, _, s) =>
      (match step debug .finished ((Parser.new.init .urlEncoded).setLength (s.length - 2)) [] s with
      | some (es, _, _, _) =>
        pairs es == [(b!"first_name", b!"Ada"), (b!"last_name", b!"Lovelace"), (b!"age", b!"36"),
          (b!"gender", b!"Female")]
      | none => false)
    | none => false) = true := by decide +kernel

/-! The same with the models of these programs (C87 to C89); of the multipart file the first two parts. -/

example : Form.program (multipartHead ++ (multipartBody.take 244 ++ b!"--")) = some
    [([(b!"content-disposition", b!"form-data; name=\"first_name\"")], b!"Ada"),
     ([(b!"content-disposition", b!"form-data; name=\"last_name\"")], b!"Lovelace")] := by decide +kernel

example : (match Chunks.program (chunkHead ++ chunkBody) with
    | some [r, s, t] =>
      r.length == 23 && r.data == b!"This is the first chunk" && r.extensions == [] && r.fields.headers == [] &&
      s.length == 24 && s.data == b!"This is the second chunk" && s.extensions == b!"gzipbziptarextensioncomplex" &&
      s.fields.headers == [] && t.length == 0 && t.data == [] && t.extensions == [] &&
      t.fields.headers == [(b!"trailer2", b!"This is trailer 2"), (b!"trailer1", b!"This is trailer 1")]
    | _ => false) = true := by decide +kernel

example : (UrlForm.program (urlHead ++ urlBody)).map List.reverse = some
    [(b!"first_name", b!"Ada"), (b!"last_name", b!"Lovelace"), (b!"age", b!"36"), (b!"gender", b!"Female")] := by
  decide +kernel

end Verif.Conformance.Integration
