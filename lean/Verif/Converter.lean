import Verif.Py
/-!
# Model of `converter.py` and `main.py`

Page parsing, page creation and saving are external (MuPDF, python-docx): they are parameters.
-/

namespace Conv
open Py

/-! ## Page selection -/

/-- `Converter._page_indexes` (converter.py L345-355), for integer arguments.
`if pages:` is false for `None` and `[]`; `end or pdf_len` replaces `None` and `0`. -/
def pageIndexes (start : Int) (end_ : Option Int) (pages : Option (List Int)) (pdfLen : Nat) :
    List Int :=
  match pages with
  | some (x :: xs) => (x :: xs).filter fun i => decide (0 ≤ i ∧ i < pdfLen)
  | _ =>
    let e : Int := match end_ with
      | none => pdfLen
      | some e => if e = 0 then pdfLen else e
    -- `range(pdf_len)[slice(start, end)]`
    (sliceIdx pdfLen (some start) (some e) 1)

/-- The arguments of a command after `main.py` L26-29 / L68-71. -/
structure Args where
  start : Int
  end_ : Option Int
  pages : Option (List Int)
  deriving Repr, DecidableEq

/-- `PDF2DOCX.convert`/`PDF2DOCX.table` with `zero_based_index=False` (main.py L26-29, L68-71). -/
def oneBased (a : Args) : Args where
  start := max (a.start - 1) 0
  end_ := match a.end_ with
    | some e => if e = 0 then some e else some (e - 1)
    | none => none
  pages := match a.pages with
    | some (x :: xs) => some ((x :: xs).map (· - 1))
    | p => p

/-- Page selection of the command line (main.py L10-33 followed by converter.py L231). -/
def cliIndexes (zeroBased : Bool) (a : Args) (pdfLen : Nat) : List Int :=
  let a := if zeroBased then a else oneBased a
  pageIndexes a.start a.end_ a.pages pdfLen

/-- `PDF2DOCX.debug` (main.py L48-50): the page index. -/
def debugIndex (zeroBased : Bool) (i : Int) : Int := if zeroBased then i else max (i - 1) 0

/-! ## Indexing -/

/-- `Converter.__getitem__` with an integer (converter.py L43-50). -/
def getItem {α} (pages : List α) (i : Int) : Except Err α :=
  match getIdx pages i with
  | some p => .ok p
  | none => .error .index

/-- `Converter.__getitem__` with a slice (converter.py L36-42). `pageCount` is the length of `_pages`. -/
def getSlice {α} (pages : List α) (start stop step : Option Int) : Except Err (List α) :=
  let num : Int := pages.length
  let stop' : Int := match stop with
    | none => num
    | some s => if s > num then num else s
  -- `[self._pages[i] for i in range(stop)]`, then `[index]`
  slice (pages.take stop'.toNat) start stop step

/-! ## The converter as a state machine -/

/-- Observable part of a `Page` object (page/Page.py L40-51). `layout` stands for width, height,
margin, blocks and shapes. -/
structure PageSt (L : Type) where
  id : Int
  finalized : Bool
  layout : L
  deriving Repr, DecidableEq

/-- What one `Page.parse` (page/Page.py L143-156) does.
* `loadFail idSet l`: `raw_dict` or `restore` raised, before `_finalized` is written (L214; restore
  writes it last, L138); the layout may have been changed, the id may have been set (L126);
* `parseFail l`: raised in `_parse_layout` (L152), after `_load_source` wrote `_finalized = False` (L215);
* `ok l`: finished. -/
inductive Outcome (L : Type) where
  | loadFail (idSet : Bool) (l : L)
  | parseFail (l : L)
  | ok (l : L)
  deriving Repr, DecidableEq

/-- The page parser: page number, settings (the `kwargs` given to parse) and old layout determine the outcome.
(The old layout matters: `Blocks.restore` does not clear floating images, page/Blocks.py.) -/
abbrev Engine (S L : Type) := Nat → S → L → Outcome L

/-- `Page.parse` on page number `k`. -/
def PageSt.parse {S L} (eng : Engine S L) (s : S) (k : Nat) (p : PageSt L) : PageSt L :=
  match eng k s p.layout with
  | .loadFail idSet l => { id := if idSet then k else p.id, finalized := p.finalized, layout := l }
  | .parseFail l => { id := k, finalized := false, layout := l }
  | .ok l => { id := k, finalized := true, layout := l }

/-- `Page.restore` (page/Page.py L123-140) on a stored page. `load` is the effect of restoring stored layout data
on the current layout. -/
def PageSt.restore {L D} (load : D → L → L) (id : Option Int) (d : D) (p : PageSt L) : PageSt L :=
  { id := id.getD (-1), finalized := true, layout := load d p.layout }

/-- `self._pages` (converter.py L32). -/
abbrev Pages (L : Type) := List (PageSt L)

/-- `Converter.__init__` (converter.py L23-32): one unparsed page per PDF page. -/
def init {L} (l0 : L) (n : Nat) : Pages L :=
  List.replicate n { id := -1, finalized := false, layout := l0 }

/-- Body of the loop in `Converter.parse` (converter.py L77-82): every exception, including the `IndexError` of
`self._pages[idx]`, is swallowed. -/
def parseOne {S L} (eng : Engine S L) (s : S) (ps : Pages L) (idx : Int) : Pages L :=
  match normIdx ps.length idx with
  | some k => ps.modify k (PageSt.parse eng s k)
  | none => ps

/-- The pages `Converter.parse` iterates over (converter.py L75). -/
def effective (n : Nat) (idxs : List Int) : List Int :=
  if idxs.isEmpty then (List.range n).map Int.ofNat else idxs

/-- `Converter.parse` (converter.py L65-84); `None` is the empty list. -/
def parse {S L} (eng : Engine S L) (s : S) (idxs : List Int) (ps : Pages L) : Pages L :=
  (effective ps.length idxs).foldl (parseOne eng s) ps

/-- Positions of the parsed pages, in document order: `filter(lambda page: page.finalized, self._pages)`
(converter.py L98-100; also L129 and L263-264). -/
def finalizedIdx {L} (ps : Pages L) : List Nat :=
  (List.range ps.length).filter fun i => (ps[i]?.map PageSt.finalized).getD false

/-- Stored form of one page: id and layout data (page/Page.py L111-120). -/
structure RawPage (D : Type) where
  id : Option Int
  data : D
  deriving Repr, DecidableEq

/-- `Converter.store` (converter.py L124-130): page count of all pages, parsed pages only. -/
def store {L D} (save : L → D) (ps : Pages L) : Nat × List (RawPage D) :=
  (ps.length, (ps.filter PageSt.finalized).map fun p => { id := some p.id, data := save p.layout })

/-- `Converter.restore` (converter.py L133-137): page by page; an `IndexError` escapes and leaves the pages restored
so far. -/
def restore {L D} (load : D → L → L) : List (RawPage D) → Pages L → Pages L × Option Err
  | [], ps => (ps, none)
  | r :: rs, ps =>
    match normIdx ps.length (r.id.getD (-1)) with
    | some k => restore load rs (ps.modify k (PageSt.restore load r.id r.data))
    | none => (ps, some .index)

/-! ## Creating the docx file -/

/-- A file's content: untouched bytes of before, a complete new document, or a partially written one. -/
inductive File (Doc : Type) where
  | old (bytes : Nat)
  | doc (d : Doc)
  | torn
  deriving Repr, DecidableEq

/-- File system: name → content. -/
abbrev FS (Doc : Type) := List Char → Option (File Doc)

def FS.remove {Doc} (fs : FS Doc) (f : List Char) : FS Doc := fun g => if g = f then none else fs g
def FS.write {Doc} (fs : FS Doc) (f : List Char) (c : File Doc) : FS Doc :=
  fun g => if g = f then some c else fs g

/-- The output name (converter.py L105): an empty name counts as omitted. -/
def docxName (pdf : List Char) (docx : Option (List Char)) : List Char :=
  match docx with
  | some (c :: cs) => c :: cs
  | _ => replace ".pdf".toList ".docx".toList pdf

/-- Body of the loop creating pages (converter.py L112-118). `create` is python-docx: it may raise after a
partial change of the document; the exception is swallowed either way, so only the changed document matters. -/
def createStep {L Doc} (create : Nat → L → Doc → Doc) (ps : Pages L) (acc : Doc × List Nat) (i : Nat) :
    Doc × List Nat :=
  match ps[i]? with
  | some p => (create i p.layout acc.1, acc.2 ++ [i])
  | none => acc

/-- Creating the parsed pages one after the other (converter.py L109-118). Returns the document and the positions
attempted, in order. -/
def createPages {L Doc} (create : Nat → L → Doc → Doc) (blank : Doc) (ps : Pages L) : Doc × List Nat :=
  (finalizedIdx ps).foldl (createStep create ps) (blank, [])

/-- `Converter.make_docx` (converter.py L87-121) as the sequence of file-system states it goes through
(every state is a possible crash point), and its result. `docx_file.save` (L121) truncates and then writes the
file; `saveOk = false` models a failing save (disk full), which leaves the truncated file. -/
def makeDocx {L Doc} (create : Nat → L → Doc → Doc) (blank : Doc) (saveOk : Bool)
    (pdf : List Char) (docx : Option (List Char)) (ps : Pages L) (fs : FS Doc) :
    List (FS Doc) × Except Err (List Nat) :=
  if finalizedIdx ps = [] then
    ([fs], .error (.exn "No parsed pages. Please parse page first."))
  else
    let f := docxName pdf docx
    let fs1 := if (fs f).isSome then fs.remove f else fs
    let r := createPages create blank ps
    let fs2 := fs1.write f .torn
    if saveOk then
      let fs3 := fs2.write f (.doc r.1)
      ([fs, fs1, fs2, fs3], .ok r.2)
    else
      ([fs, fs1, fs2], .error (.exn "save"))

/-- Sequential `Converter.convert` (converter.py L228-238, L268-275). -/
def convert {S L Doc} (eng : Engine S L) (create : Nat → L → Doc → Doc) (blank : Doc) (saveOk : Bool)
    (s : S) (pdf : List Char) (docx : Option (List Char)) (a : Args) (ps : Pages L) (fs : FS Doc) :
    Pages L × List (FS Doc) × Except Err (List Nat) :=
  let ps' := parse eng s (pageIndexes a.start a.end_ a.pages ps.length) ps
  (ps', makeDocx create blank saveOk pdf docx ps' fs)

/-- `Converter.extract_tables` (converter.py L242-265): the tables of all parsed pages in document order. -/
def extractTables {S L T} (eng : Engine S L) (tables : L → List T) (s : S) (a : Args) (ps : Pages L) :
    Pages L × List T :=
  let ps' := parse eng s (pageIndexes a.start a.end_ a.pages ps.length) ps
  (ps', (ps'.filter PageSt.finalized).flatMap fun p => tables p.layout)

/-! ## Multi-processing -/

/-- The pages of worker `idx` (converter.py L329-337) for the range `s..e`; `int(num_pages/cpu)` is floor division
for positive numbers. -/
def segment (idx cpu : Nat) (s e : Int) : List Int :=
  let num := rangeCount s (e + 1) 1
  let segSize := num / cpu + 1
  let segFrom := idx * segSize
  let segTo := min (segFrom + segSize) num
  (range segFrom segTo 1).map fun i => s + i

/-- What worker `idx` writes to its JSON file (converter.py L324-342): a fresh converter, `parse` of its segment
(with `parse`'s "empty means all"), `store`. -/
def worker {S L D} (eng : Engine S L) (save : L → D) (l0 : L) (n : Nat) (s : S) (cpu : Nat) (first last : Int)
    (idx : Nat) : List (RawPage D) :=
  (store save (parse eng s (segment idx cpu first last) (init l0 n))).2

/-- `min(page_indexes)`, `max(page_indexes)` (L291). -/
def minMax : List Int → Option (Int × Int)
  | [] => none
  | x :: xs => some (xs.foldl min x, xs.foldl max x)

/-- Restoring the worker files `pages-0.json … pages-{cpu-1}.json` in order (L300-304); a missing file is skipped.
`files i` is the content of `pages-{i}.json`. -/
def restoreFiles {L D} (load : D → L → L) (files : Nat → Option (List (RawPage D))) : List Nat → Pages L →
    Except Err (Pages L)
  | [], ps => .ok ps
  | i :: is, ps => match files i with
    | none => restoreFiles load files is ps
    | some d => match restore load d ps with
      | (ps', none) => restoreFiles load files is ps'
      | (_, some e) => .error e

/-- The files after the workers ran in the order `order` (a permutation of `0..cpu-1`): each worker writes only
its own file (L341). -/
def runWorkers {D} (w : Nat → List (RawPage D)) (order : List Nat) (files : Nat → Option (List (RawPage D))) :
    Nat → Option (List (RawPage D)) :=
  order.foldl (fun fs i => fun j => if j = i then some (w i) else fs j) files

/-- Pages of the parent after `_parse_and_create_pages_with_multi_processing` up to `make_docx`
(converter.py L278-307). `cpu` is the number of workers after L290; an empty page list makes `min` raise
`ValueError`. `order` is the order in which the workers finish. -/
def parseMulti {S L D} (eng : Engine S L) (save : L → D) (load : D → L → L) (l0 : L) (s : S) (cpu : Nat)
    (order : List Nat) (idxs : List Int) (files : Nat → Option (List (RawPage D))) (ps : Pages L) :
    Except Err (Pages L) :=
  match minMax idxs with
  | none => .error .value
  | some (first, last) =>
    restoreFiles load (runWorkers (worker eng save l0 ps.length s cpu first last) order files)
      (List.range cpu) ps

end Conv
