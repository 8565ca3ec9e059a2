# Formal model of seankerr/rust-http-box

The code under study is in `/repo` (Rust, read as text, never built here). This file says what is
modelled, how each property of `properties.jsonl` is proved, what is trusted, and where the code
disagrees with what a user would expect. `MANIFEST.json` names the theorems of each property (`INDEX.md` shows it as a table);
`seeded/LOG.jsonl` records wrong programs against which the theorems were tried.

## 1. Architecture of the Lean development (`lean/Verif`)

Models (every definition cites the lines of `/repo` it models):

| module | models |
|---|---|
| `Bytes` | the three lookup tables of `src/byte.rs`, the byte predicates of the `byte-slice` crate |
| `Stream` | `ByteStream` of the `byte-slice` crate, its macros, the collection macros of `src/collect.rs` |
| `Util/{Decode,Query,Field,Collect}` | `src/util/{decode,query,field}.rs` |
| `Http1/Model` | `src/fsm.rs`, `src/http1/parser.rs`, `src/http1/http_handler.rs`: one Lean definition per state function |
| `Http2/Model` | `src/http2/parser.rs`, `src/http2/http_handler.rs`, likewise |
| `Http2/Release` | the same without overflow checks (wrapping subtraction), the 14 state functions that differ |
| `Http2/Consts` | `src/http2/{error_code,flags,frame_format,frame_type,setting}.rs` |
| `Format` | every `Debug` and `Display` implementation |
| `Http1/{HeadProgram,MultipartProgram,ChunkProgram,UrlProgram}` | the documented head program and the programs of `tests` |

Specifications (readable without the models):

| module | content |
|---|---|
| `ByteSpec`, `Util/HexSpec` | byte classes, hexadecimal digits |
| `Util/{DecodeSpec,QuerySpec,FieldSpec}` | grammars of URL encoding, queries and field lists |
| `Util/{FieldLooseSpec,QueryRejectSpec}` | exact grammars of accepted and rejected fields, of rejected queries |
| `Http1/Events` | the flat history: data callbacks cut into single bytes |
| `Http1/Client`, `Http2/Client` | the client (`drive`), complete runs, agreement of runs, reachable parsers |
| `Http1/{HeadSpec,HeadOrder}` | clean head data, the order of callbacks |
| `Http1/{OrderSpec,BodyOrder,Ask}` | the order of the callbacks of bodies, when `content_length` is asked |
| `Http1/{MessageSpec,ChunkSpec,UrlSpec,MpSpec}` | how messages and bodies are written and what they mean |
| `Http1/ReadSpec` | what any byte string means, as a recursive-descent reader of heads and of bodies |
| `Http1/ConnSpec` | the client of a connection with many messages |
| `Http1/EndSpec` | the first empty line |
| `Util/ForwardSpec` | how a program may write down the items of a query |
| `Util/FieldForwardSpec` | how a program may write down the items of a header field |
| `Http1/Rounds`, `Http2/Rounds` | how many state functions a call, a client run or a connection calls (the loops of the model, counting) |
| `Http1/ConnReadSpec` | what any bytes mean as a connection: the descriptions of heads and bodies one after the other |
| `Http1/ForwardConnSpec` | a handler that writes down a connection as its callbacks come |
| `Http1/FramingSpec` | a scanner that finds the end of a chunked body by sizes and line ends |
| `Http1/{MpFramingSpec,HeadScanSpec,ConnScanSpec}`, `Http2/FramingSpec`, `Util/{FormSplitSpec,FieldItemsSpec}` | how other programs read multipart bodies, heads, connections, frames, forms and header fields |
| `Http1/ForwardSpec` | a handler that writes down a head as its callbacks come |
| `Http1/{LooseSpec,UrlLoose}` | exact grammars of what is accepted |
| `Http2/FrameSpec` | how frames are written and what they mean |
| `Http2/AnySpec` | what the parser tells about any bytes, with numbers instead of registers |
| `Http2/{CutSpec,ReleaseSpec}` | the same for bytes in slices, and without overflow checks |
| `Http2/PieceSpec` | what it means that data was taken from a slice |
| `Http2/OrderSpec` | the order of the callbacks of frames, how much payload a frame may have |
| `Http1/CostSpec`, `Http2/CostSpec`, `Util/CostSpec` | how much was handed over, how often |
| `FormatSpec` | decimal numerals in messages |

Helper lemmas: `Util/*Lemmas`, `Util/*Run`, `Util/{FieldLoose,QueryReject}`; in `Http1`: `Bits` (the packed `bit_data`), `Frame*` (what a
step leaves alone), `Safe`, `Mode`, `Reach`, `History`, `Yes`, `Twin`, `Pause`, `Feed`, `Shift`, `Upper`
(single calls), `Spec` and `Sim*`, `Call`, `Drive`, `Start`, `AnyHead` (the simulation), `Emit`, `HeadNum`,
`ChunkInv`, `MpInv` (invariants), `Runs*` (well-formed messages),
`Inv`, `InvChunk`, `InvUrl`, `InvMp` (inversion: accepted bytes are messages), `Viable`, `ViableMp` (completion of prefixes), `Progress` (clients get done); the same names in `Http2`.

Property theorems with a concrete instance beside each: `Props/*`.

Conformance of the model: `Conformance/*` runs the tests of the repository on the model, in the kernel: all 133 tests of
`src/http1/test`, all 19 of `src/http2/test`, all 28 of `src/util/test` and the four of `tests` (of the multipart test
the two parts of text; its images are too long). They check the results, the numbers of bytes, the states, the data and
the errors that the authors of the code saw. The first two files are translated by `conformance/*.py` from the text of
the tests. These are tests of the translation to the model, not proofs, and no property rests on them.

### Modelling decisions

* A byte is `UInt8`; a slice is `List UInt8`; `usize` is `Nat` (no overflow of byte counters or of a
  32-bit chunk length in a 64-bit `usize`); `u32` bit fields are `UInt32`.
* `ByteStream` is `{stream, idx, mark, byte}` exactly as used by the code.
* A state function is a Lean function `Handler → Cfg → Out`, where `Cfg` holds the parser fields,
  the stream context and the history of callbacks; `Out` is `cont`, `exit`, `err`, `panic`
  (index out of bounds, `unwrap` of `None`, arithmetic underflow) or `ub` (out-of-bounds unsafe read).
* The function pointer `state_function` is an enumeration with one constructor per state function;
  the reported `state` is a separate field, as in the code.
* A handler is an arbitrary function from the whole history of callbacks (names and data, including
  the present one) to the boolean it returns, and from the history to `content_length()`. This
  covers every deterministic handler; a nondeterministic one is covered run by run.
* The loop in `parse` is run with fuel; exhaustion is a separate outcome that is proved impossible
  (C11, C45).
* A client is modelled by `drive`: it holds the remaining bytes of a message and a schedule of slice
  sizes; each call passes a prefix of the remaining bytes and advances by the returned count.
* Data callbacks may split data anywhere. The *flat* history replaces each data callback by one
  single-byte event per byte. Slicing independence is equality of flat histories.

### Proof method for the parsers

`Spec` defines `pred`, the result (flat history, outcome) that a byte-at-a-time machine
produces on the rest of a message. The simulation says that for every state function,
`pred (history so far) (abstract state) (remaining bytes)` is the same before and after the call,
whatever fast path was taken, however many bytes were available, and whatever the callback returned.
By induction over the loop and over the client's schedule the flat history of the real parser is the
predicted one. Theorems about `pred` (what it does on well-formed messages, invariants over all
inputs) are then transferred to the parser for every slicing and every pause pattern. No property
theorem mentions `pred`: it is an instrument of the proofs.

## 2. Properties: what is modelled and how proved

* C01-C04 (`util::decode`): functional model of the loop; refinement to the grammar `Decodes` by
  induction; C02 against an arbitrary encoder. C04's UTF-8 part is false (`%FF`): witness `C04_fails`,
  partial theorems for escapes below `%80` and for encoded UTF-8 text.
* C05-C06 (`QueryIterator`): functional model of `next`. C05 is false for names containing `%`
  (every escape in a name is rejected, `C05_rejects_name_escapes`); partial: an equivalence for names
  without escapes. C06 is false (a bad escape in a value leaves the iterator in mid-stream); totality
  is proved.
* C07-C09 (`FieldIterator`): functional model of `next`. C07 is false when a quoted value is not the
  last item (`C07_rejects_quoted`); C08 is false when a name ends in an upper-case letter at the end
  of the field; C09 is false for byte 255.
* C58-C59: inversion of the functional model of `next`: what it returns explains the bytes read, in the grammar
  `Util/FieldLooseSpec`; the converse by running the model on the grammar. C58 is false for the grammar of C07
  (`C58_fails`): the byte after a closing quote is not looked at, names may be empty.
* C60: the same for queries (`Util/QueryRejectSpec`). C61: values are made of bytes of the input (fields) or of its
  decoding (queries), cut only at ASCII bytes, so UTF-8 stays UTF-8 (`Util/Utf8`); false for input that is not UTF-8,
  and for escapes that write parts of characters.
* C10: the tables as lists of 255 booleans; the whole table checked by the kernel and lifted to all bytes;
  byte 255 is out of range (panic).
* C11, C13, C15, C16, C22, C23: invariants of single steps lifted over the loop and over histories.
* C12: panic freedom from every reachable state; witnesses for four violations.
* C14: invariant over histories; false for URL-encoded parsing (the final slice is counted twice). `C14_one_call` says
  what every call adds, with that defect written down.
* C17: stepwise comparison of a pausing and a non-pausing run, with equality of the callbacks (not only
  of the flat history).
* C18-C21, C31: the simulation. C18 is false for methods starting with `H` when fewer than nine bytes
  are available. C19 and C20 are false for rejected bodies (`C19_fails`, `C20_fails`: the data of the rejected token is
  delivered in one slicing and not in another), and so is C18 there; C21 is false for boundaries with CR.
* Changes of wording. While the proofs were made, C18-C21, C27, C28, C37, C77 and C82 had been narrowed to what was proved
  (the exception for rejected tokens or panics; boundaries without CR below 2^14 bytes; which byte is named), and all but C18
  and C82 were then counted as proved. They have their first wording again (C18-C20 with the unprocessed rest added) and are
  partial. C37 is open, neither proved nor refuted, for the other
  boundaries; C27 and C28 are now shown for all boundaries (`Http1/AnyBoundary`: the prediction is made anew after each step),
  and lack only an empty first slice of a new parser. C77, C94 and C98 named the
  restriction of boundaries when they were first written. All other changes of wording added claims.
* C29, C30, C59, C72, C74-C76, C86, C98 and C115 were counted as proved although their theorems say less than the wording:
  an empty first slice of a new parser, some delimiters, data of a token with an error, well-formed bodies that the code
  does not accept, or the bytes after a boundary error are left out. They are partial now; `MANIFEST.json` and the comments
  of the theorems say what is missing.
* C72: what happens in that case, exactly. The reference machine has states `ldet2`..`ldet5` that forget the letters
  read; `Http1/Misread.lean` shows that a run follows them if and only if the first word arrives in a call with fewer than
  nine bytes (`tokenSlice` in `Http1/DetectSpec.lean`), and compares the two predictions.
* C51 and C83 for every slicing of heads: by C72 the short reading of a word in `H` ends where the other one ends, unless it
  is rejected at the space after the word (`Props/Http1ShortHeads`; also witnesses for C31, C53, C56, C68, C73 and C82).
* C73: a client that re-initialises the parser after each message (`serve` in `Http1/ConnSpec.lean`) is a sequence of clients of
  single messages; C25, C26, C32, C36, C38 hold for any earlier parser, and are composed by induction over the messages.
* C74-C77: the recursive-descent reader `Http1/ReadSpec.lean` (functions on the whole rest of the message, no states, no
  slices) is compared with `pred`, function by function, by induction over the rest (`Http1/RunsRead.lean`,
  `Http1/RunsReadBody.lean`). It says for every byte string which callbacks come and how reading ends, including exactly
  which byte is an error and where the program panics. What the reader accepts that is not HTTP, and where it
  panics, is what the code does (section 5); C50-C55, C67-C69 compare that with grammars.
* C24: simulation for `strip_detect`; false for `Parser::new()` (starts in `detect1`).
* C25-C26: runs of `pred` over well-formed heads. C27-C30: invariants of `pred` over all inputs.
* C32: runs over chunked bodies. C33-C35: invariant relating announced lengths, data and digits read.
  C35 is false for a last chunk with an extension.
* C36: runs over multipart bodies: scanning data that does not contain the delimiter, by induction on
  the data from its end. False when data ends in CR, CRLF or CRLF-hyphen (`C36_line_end_before_boundary`).
* C37: invariant `MpJ` over all inputs: what was read is what was emitted plus a pending piece of the delimiter.
  The simulation needs a handler whose content lengths depend on the flat history only. For statements about one run
  (C27, C28, C36, C37) this is no restriction: `Http1/Lengths.lean` replaces any handler by one of this kind that leads
  to the same run, since the histories at which a run asks stand for different bytes (C62).
* C38-C39: runs over URL-encoded bodies. C40 is false (a cut escape is silently accepted).
* C41-C44: simulation for HTTP/2; runs over frames and frame lists. C44 is false (stream id, GOAWAY and
  SETTINGS fields cut by a slice end); C43 is false for SETTINGS frames whose payload is not exactly
  one setting. C41-C43 exclude these cuts by position in the input, not by what `state()` says: the number of
  callbacks after each byte of a frame tells where the reference machine is within such a field (`Http2/Cuts.lean`).
  The simulation is up to the upper halves of stream ids (`Near`), so that cuts within a stream id need not be excluded
  when only that much is claimed (`half_id` theorems).
* C70: false. Two states are never left (`Stuck` in `Http2/Drive.lean`); a run either never stops within a long field, and
  then agrees with the reference machine, for which each state has a continuation that tells something (`Http2/Stuck.lean`),
  or it gets stuck at the first such stop and tells nothing more. `C70_frames` says what every slicing of frames leads to.
* C71: the reference machine is run through the fields of `told` (`Http2/AnySpec.lean`), which reads any byte string frame
  by frame (`Http2/RunsAny.lean`); the simulation transfers this to the parser. Exact for input in one slice, with any
  handler; it also says for which bytes the parser panics. False for slices that end within the fields of C41 and C70.
* C78: the reference machine is told where slices end (`predC` in `Http2/Slices.lean`). `Http2/Exact.lean` shows that a
  client run agrees with it: within a call the invariant must hold for every continuation of the input in slices that
  agree with the ends known so far, since the parser learns that a field is cut only when the slice runs out. `toldC`
  (`Http2/CutSpec.lean`) is the reader of C71 with the three defects written down. No exceptions remain.
* C79, C80: readers of fields and of queries for any bytes (`Util/ReadSpec.lean`), with errors and panics; the step lemmas
  `field_next` and `query_next` say what one call does at any place, and the readers are shown to do the same.
* C81: the grammar `Pairs` of C05 is run through the reader of C76 (`Props/FormQuery.lean`), by induction on the grammar;
  the converse by induction on the bytes. Also covers empty fields, which the grammar of C38 leaves out.
* C82, C83: the prediction of the reference machine for `msg ++ x` is that for `msg`, continued (`Http1/More.lean`, by
  induction on `msg`; for URL-encoded bodies up to the declared length). Two runs over `msg` and `msg ++ x` agree with
  their predictions (as in C18-C21), so they agree with each other. C83 follows: if one accepted message continues
  another, the continuation is what C82 says is left, so it is empty. False for heads where C18 is.
* C84: the same for HTTP/2, with `told` (C71) as the prediction. It is monotone in its input (`pred_mono`) and keeps
  panics (`pred_panic_more`). False where C41 and C70 are. Without overflow checks: the reader of C95 is monotone
  (`Props/Http2ReleaseFinal`).
* C45-C47: invariants over histories. C45 is false for padding larger than the payload and for too short
  payloads; C46 is false for PUSH_PROMISE and WINDOW_UPDATE.
* C50, C52, C54, C55, C67: inversion of runs of `pred` that finish (or fail), by induction on the bytes, to an exact
  grammar; the converse by runs over the grammar. The grammars are larger than HTTP's (`C50_fails`, `C52_fails`,
  `C40_fails`, `C67_fails`). C51, C53, C68: a run over a prefix of a message that is read to its last byte ends with `Eos`.
* C56, C69: for every state of the reference machine a continuation that finishes; errors carry the byte read last
  (for mismatches of an expected boundary it may come before the byte that differs, `C69_boundary_errors`). C67 says exactly which data hides a delimiter
  (`Scanned` in `Http1/MpLooseSpec.lean`).
* C62: an invariant of single steps (`Grew` in `Frame`). C17 also says that a call stops right after the first callback
  that answers `false` (`C17_false_stops`; found missing by a seeded error).
* C57: a potential (8 per unread byte plus a rank of the state) drops with every call.
* C63-C65: each state function run twice, with a handler and with the one that always agrees, the second time with more
  bytes before the slice (`Http2/Pair`); lifted to calls, and with the potential 4 per unread byte plus a rank of the
  state to clients (`Http2/Feed`). C66: the invariant of C46. All of these once more for the parser without overflow
  checks, where nothing panics (`Http2/ReleaseFeed`, `Http2/ReleaseGood`, `Props/Http2ReleasePauses`).
* C48-C49: finite enumerations; bit-level equalities for `FrameFormat` packing.
* C85: the handler of examples/http1_head_parsing.md is modelled (`Http1/HeadProgram.lean`) as a state that every callback
  changes; a panic of `unwrap` is the result `none`. How data is cut into pieces makes no difference to it as long as no
  piece is empty (`onAll_flat`, C62), so that the round trips C25 and C26 say what it has stored after a run. It panics
  exactly when a value is not UTF-8 (`C85_request_partial`, `C85_response_partial`, `C85_fails`).
* C86: how many callbacks were answered `false` is a function of the callbacks executed (`stops`, `Http1/PauseSpec.lean`); an
  induction over the calls ties it to the number of calls (`Http1/Stops`), and C17 to the single call. The bodies of C36 and
  C32 then give one part and one chunk per call.
* C87: the program of tests/http1_multipart.rs (`Http1/MultipartProgram.lean`), its four calls as a loop. C25 gives the head,
  C07 the boundary, C86 the callbacks of each call; what the handlers store does not depend on how data is cut
  (`Http1/MultipartProgramRun`).
* C88, C89: the programs of tests/http1_chunk_encoded.rs and tests/http1_url_encoded.rs in the same way (`Http1/ChunkProgram`,
  `Http1/UrlProgram`), with C32 and C86, and C38.
* C90: `Format` models every `Debug` and `Display` implementation as the bytes it writes; the texts are shown to be uniquely
  readable (name up to the first colon, parenthesis or bracket, then a decimal numeral, `FormatSpec`), so equal texts mean equal values.
* C91: `Http2/Release` is the parser with wrapping subtraction. Step by step it does what the checked one does unless that
  panics (`Http2/ReleaseLemmas`), and no step of it panics. After a pad length that is too large the payload length has
  wrapped, and by induction over the calls all further bytes are payload (`Http2/ReleaseSwallow`).
* C92: which callback may follow which is an automaton for each kind of body (`Http1/OrderSpec`). Each state of the reference
  machine fits some of its phases, and every step keeps that (`Http1/BodyOrder`); C32, C36 and C38 rest on the same
  simulation. For `content_length`, every state function is shown to leave the state that asks out, except the one that
  has just executed `on_headers_finished` (`Http1/Ask`).
* C93: the program of C85 on what C50 shows to be accepted; `joined` (`Http1/JoinSpec`) says which lines belong to which
  field, and an induction over the lines that the handler stores just that (`Http1/JoinRun`).
* C94: the programs of C87-C89 on what C53, C54 and C67 show to be accepted. If a program does not panic, its last call returned
  `Finished`; the calls together are a run without stops (C17), so the input is in the grammar; C86 and an induction over chunks, fields
  or parts give what is stored (`Http1/AnyRun`, `Http1/GlueRun`, `Http1/AnyParts`). Inputs of
  fewer than nine bytes, where C18 applies, are settled with C72 (`Http1/AnyShort`). Since both directions are shown, the program
  panics exactly on the other inputs.
* C95: `Release.told` (`Http2/ReleaseSpec`) is the frame reader of C71 with wrapping lengths. A call that pauses and is resumed goes on
  as if it had not paused, so a relation `Ends` between a state and what is still reported is followed through every state function
  (`Http2/ReleaseEnds`, `ReleaseAny`, `ReleaseBody`), then by induction over the frames (`Http2/ReleaseFrame`). The comparison with
  `told` is about the two readers only (`Http2/ReleaseFollows`). For slices and pauses (`C95_every_slicing`) an invariant says that the
  payload being read is longer than all bytes that are left; it holds after the step at which the checked parser panics and
  every step keeps it (`Http2/ReleaseDeep`).
* C96: for each state function, an error it returns carries the byte at the read position, which it has just stepped over; the
  transfers of `Http1/Blame` are one lemma per function. With the invariant that the count is the read position (C14) this gives
  the position of the byte, and by induction over the calls the bytes that are left.
* C97: the handler of tests/http1_head.rs (`Http1/HeadTestProgram`) stores the same for data in one piece and byte by byte, so C74
  says what it has stored; for accepted heads C50 and the lemmas of C94 about header lines.
* C98: the readers of C74 to C78 are composed of combinators; one lemma for each (`Http1/Cost`, `Http2/Cost`) bounds the weight of
  what it tells plus the bytes it leaves. Every HTTP/1 run can be continued until it is complete (C57), and histories only grow, so
  the bounds hold for runs that are not complete; for HTTP/2, C78 is about all runs. Without overflow checks: the reader of C95 (`Http2/ReleaseCost`).
* C99: the readers of C79 and C80 (`Util/Cost`): an item and what is left fit into what was unread; then induction over the calls.
* C100: the specification `Http2/OrderSpec` follows a history callback by callback. The reader of C78 is in order, frame by frame
  (`Http2/Order`); an accepted history stays accepted when single bytes are joined to the pieces that were handed over, and so do
  its beginnings. A witness shows that the order is violated without overflow checks.
* C101: a head of the grammar of C50 is a list of lines without CR and LF, none of them empty (`Http1/End`). Bytes after which the
  parser wants more have a continuation that is a head (C56), so they have no empty line; likewise the bytes before an error.
* C102: the head that is written for a head of the grammar of C50 is again one (`Http1/Forward`): values of folded lines and of
  fields without a name are joined to the value before, as their callbacks are. What is written does not depend on the pieces.
* C103: likewise for the grammars of C52, C54 and C67 (`Http1/ForwardBody`, `Http1/ForwardParts`). The handlers are in
  `Http1/ForwardSpec`; they only remember which callback was the last one.
* C104: a history in the order of C100 is cut into complete frames and a rest (`Http2/Forward`, `Http2/ForwardFrames`); each frame
  is written so that the reader of C71 reads it back, which needs that all reported numbers fit into their fields (from C78). C71
  says that the parser does what this reader does. For the size each callback is weighed (`Http2/ForwardCost`); the pad length is
  counted with the end of the payload.
* C105: the items of any loop have names as `query_after` says (as for C61), and the reader of C80 shows that the first name is not
  empty. What is written of them (`Util/ForwardSpec`) is in the grammar of C05, with the same items.
* C106: induction over the messages. Each one is read and written as in C102 and C103 (`Props/Http1ForwardConn`, `stage_again`); the
  callback that ends a message is the last one of it and only there (`Http1/ForwardConn`), so that the handler starts afresh where
  the client does. The two clients stay in step because what they ask for depends on what was reported.
* C107: the items of any loop are items of the grammars of C58 and C59, which tell the bytes of the names. What is written of them
  (`Util/FieldForwardSpec`) is in the grammar of C58. The delimiters are those of C58; what the others do is in C79.
* C108: a body of the grammar of C52 ends where a scanner for sizes and line ends (`Http1/FramingSpec`) says (`Http1/Framing`), since
  no size line contains a CR or LF. The scanner looks at nothing beyond the end it finds; with the completion of cut-off bodies (as
  in C56) this gives the claims about `Eos` and errors. Partial because of the finding of C35: a last chunk with extensions is not
  taken for the last one (`C108_fails`), so that the parser and a program that follows RFC 7230 see different messages.
* C109: a body of the grammar of C67 is searched for the first occurrence of the delimiter, part by part (`Http1/MpFramingSpec`,
  `Http1/MpFraming`). False when a header line or data starts with the delimiter, and for the data of C36 (`C109_fails`); the theorem
  is an equivalence, so there are no other cases.
* C110: a body that suits its length makes the reader of C71 go on exactly `length` bytes later (`Http2/FramingSpec`,
  `Http2/Framing`); C71 carries this over to runs. False for other lengths, and for some that RFC 7540 allows (`C110_fails`).
* C111: the grammars of C05 and C81 against a splitter after the URL standard (`Util/FormSplitSpec`, `Util/FormSplit`), by induction over
  the items. False because of `;` (`C111_fails`) and of C40.
* C112: the grammar of C50 against a reader that splits at line ends, blanks and colons (`Http1/HeadScanSpec`, `Http1/HeadScan`), by
  induction over the lines. False because blanks at the end of values are reported (`C112_fails`).
* C113: the grammar of C58 against a reader after the rules for MIME types (`Util/FieldItemsSpec`, `Util/FieldItems`), by induction
  over the items. False because of 17 and 20 in section 5 (`C113_fails`).
* C114: induction over the messages of `serve` (`Http1/ConnScanSpec`, `Http1/ConnScan`). Each head is one of C112, each body one of
  C52 and C108 or of C54; the letters that C18 loses are carried along. False because of these letters (`C114_fails`).
* C115: induction over the messages of `serve`; each one is read as C74, C75, C76 or C77 say (`Http1/ConnReadSpec`). The description is
  deterministic where no head starts with `H` (`conn_unique`), so that all slicings agree.
* C116 (partial): C82 for each message (`mode_continues`), and induction over the description of the longer connection (C115). The code
  violates the claim for heads that start with `H` (`C116_fails`).
* C117: the potentials of C57 and C65 drop with every state function that continues, and are at least 8 (HTTP/2: 4) for each byte that
  is left unread (`rounds_le`); then induction over the calls. Work is counted in calls of state functions, not in what these do.
  `C117_counted` ties the numbers to a relation without fuel (`Loops`), as the fuel of the model alone would bound them for one call.
  `C117_total` adds the bound on the number of calls of C57 and C65; without overflow checks that one is proved by comparing a state
  function that pauses with one that does not (`Props/Http2ReleaseProgress`).
  For HTTP/2 with and without overflow checks.
* C118: each state function reports at most one piece of data, the bytes between the position before it and the one after it
  (`Http2/Adds`); then induction over the loop and over the calls. `Pieces` is in `Http2/PieceSpec`.
* C119: the state function of the first byte of a frame clears the registers, so that the first call with a byte makes two parsers
  equal; an empty slice leaves both as they are. Induction over the calls (`Props/Http2Between`).

## 3. Trusted base

* The Lean 4.33.0 kernel.
* Axioms. `#print axioms` on every theorem of `MANIFEST.json` gives subsets of `propext`,
  `Classical.choice`, `Quot.sound`; which one for each theorem is listed in `AXIOMS.md`. No own axioms, no `sorry`, no `native_decide`,
  no `bv_decide`. `decide +kernel` is used for concrete examples, counterexamples and whole finite tables.
* The hand translation of the Rust code to the model (line references at each definition); the model passes the tests of
  the repository (`Conformance/*`).
* The `byte-slice` crate (version 0.1.11), whose source is not available here: its macros are
  modelled from their use in this repository and its unit tests.
* A panic is any of: index out of bounds, `unwrap` of `None`, arithmetic overflow or underflow (debug builds; release builds of the HTTP/2 parser: C91).

## 4. Not modelled

The derived `Debug` of the two `ParserState` enums, the examples and test programs other than those of C85, C87 to C89 and C97 (their inputs are in `Conformance/*`), `String` capacity, memory allocation, `src/lib.rs` re-exports,
the bodies of default handler methods (they return `true`/`None`, i.e. are special handlers).

## 5. Where the code disagrees with the properties

HTTP/1:

1. Byte 0xFF panics in `is_token`, `is_header_field`, `is_quoted_header_field` (tables have 255 entries):
   `C10_fails`, `C12_fails_byte_255`.
2. `Parser::new()` starts in `detect1` and does not skip leading blanks (`C24_fails`); its `state()` says
   `StripDetect` (`C22_fails`); an empty first slice makes it read out of bounds (`C12_fails_empty_slice`).
3. Methods starting with `H` lose it when fewer than nine bytes are available (`C18_fails`; `C72_requests` says what
   is reported instead).
4. A last chunk with extensions does not end the body (`C35_fails`); sizes with leading zeros are rejected (C34), empty values too (`C32_fails`).
5. Empty header values, values that start with a byte from 0x7F on, empty reasons and some escapes are
   rejected (`C25_fails`, `C26_fails`). On the other hand header fields without a name (`: x`) and folded lines
   before the first field are accepted (`C50_fails`), and so are chunk extensions without a name or a value
   when another one follows (`C52_fails`).
6. Multipart: data ending in CR, CRLF or CRLF-hyphen hides the boundary (`C36_line_end_before_boundary`);
   without a boundary the parser panics (`C12_fails_no_boundary`); so does a shorter boundary set while one
   is being compared (`C12_fails_boundary_changed`); boundaries with CR depend on slicing (`C21_cr_in_boundary`);
   boundaries of 2^14 bytes and more overflow a bit field.
7. URL-encoded: `byte_count` counts the last slice twice (`C14_fails`); a body ending inside an escape
   finishes silently (`C40_fails`).

HTTP/2:

8. A stream id cut by the end of a slice keeps only its low 16 bits (`C41_fails`); when a slice ends within the last
   stream id of GOAWAY or within a settings value, the state for its third byte never gets left: the parser swallows
   all further input without any callback, error or panic (`C44_fails`, `C44_fails_settings`, `C70_silent`, `C70_fails`).
9. SETTINGS frames are parsed as exactly one setting (`C43_fails`).
10. Arithmetic underflow for frames shorter than their fields or padding (`C45_fails`). Without overflow checks up to
    2^24 bytes after such a frame are taken for its payload, whatever frames they hold (`C91_swallows`, `C91_fails`, `C95_after_panic`).
11. The reserved bit is passed on in `on_push_promise` and `on_window_update` (`C46_fails`).
12. The last callback of a frame without data comes only with the next byte (`C42_fails`).
13. Error codes can only be converted from 8 bits (`C48_error_codes_partial`).

Utilities: 14. every `%` in a query name is an error (`C05_fails`); 15. a query iterator goes on after an error
(`C06_fails`); 16. a quoted field value must be the last one (`C07_fails`); 17. the last name is dropped when it ends in an
upper-case letter (`C08_fails`); 18. byte 255 panics (`C09_fails`); 19. `decode` builds a `String` from arbitrary
bytes (`C04_fails`), and so do the iterators (`C61_fails`); 20. the byte after the closing quote of a field value is
skipped without looking at it, names may be empty, and blanks are skipped in the middle of a name after a slash or (with
`normalize`) an upper-case letter (`C58_fails`, rules of `NameText` and `ClosedItem`); 21. a field that ends after a
backslash within quotes is reported as an error of the name (`Offending.escape`).

Examples: 22. a byte above 0x7F in a header value, which the parser accepts, makes the documented program panic, unless it is
part of UTF-8 text; and since the parser accepts header fields without a name (C50), the program appends the value of such
a field to the value of the field before (`C85_fails`). 23. The form program panics when a parameter follows a quoted boundary
(16), and data that ends with CR swallows the next part (`C87_fails`); the chunk program panics over extensions of the last
chunk and sizes with a leading zero (`C88_fails`); the program for URL-encoded forms glues a field without a value to the name of
the next field, and the value of a field without a name to the value before (`C89_fails`). 24. The `Display` text of a result does not say whether
it is `Callback`, `Eos` or `Finished`; the texts of flags and frame formats leave out unnamed flag bits and the number of an unknown
frame type (`C90_fails`).

Against other programs: 25. because of 4, others see the end of a chunked body elsewhere (`C108_fails`). 26. A header line of a part
and data right after the empty line may start with the delimiter, where others find the end of the body (`C109_fails`). 27. Because
of 9 and since the lengths of PRIORITY, RST_STREAM, SETTINGS and WINDOW_UPDATE frames are ignored, others find other frames
(`C110_fails`). 28. `;` separates the items of queries and forms (`C111_fails`). 29. Blanks at the end of a
header value are reported (`C112_fails`). 30. A last name such as `TEXT/HTML` is dropped, and blanks within names are (`C113_fails`).
