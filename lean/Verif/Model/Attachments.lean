import Verif.Model.Py

/-!
# Images and PDF documents in a message: `oa/plugins/image_info.py` and `oa/plugins/pdf_info.py`

What the plugins keep for a message is a structure whose fields are empty where the code has not stored anything yet.  Results of
rules are `none` if the code raises; the rule then does not hold (oa/rules/eval_.py 70-77).  If a plugin raises while the message
is read, the message cannot be checked: nothing catches the exception (oa/context.py 382-386, oa/message.py 470).  Python's
numbers are exact here.
-/

namespace Verif.Attachments
open Verif Py

/-- An argument of an eval rule, `eval(arg)` (oa/rules/eval_.py 41-42): a whole number or a text. -/
inductive Arg
  | num (n : Int)
  | text (s : Str)
deriving DecidableEq

/-- The truth value of an argument. -/
def Arg.truthy : Arg → Bool
  | .num n => decide (n ≠ 0)
  | .text s => !s.isEmpty

/-- `int(arg)`, `none` for `ValueError`. -/
def Arg.int : Arg → Option Int
  | .num n => some n
  | .text s => int? s

/-- `float(arg)`; `parse` reads texts. -/
def Arg.float (parse : Str → Option Rat) : Arg → Option Rat
  | .num n => some n
  | .text s => parse s

/-- A part of a message; the email library gives types in lower case, and the decoded payload as bytes. -/
structure Part where
  maintype : Str
  subtype : Str
  name : Option Str
  payload : List Nat
deriving DecidableEq

/-- `d[k] += by` for a `defaultdict(int)`. -/
def bump (d : Dict Str Nat) (k : Str) (by_ : Nat) : Dict Str Nat := Dict.set d k ((Dict.get? d k).getD 0 + by_)

/-! ### Images -/

/-- The result of `PIL.Image.open` (oa/plugins/image_info.py 37-52): the size, one of the exceptions that are caught, or another
exception. -/
inductive Opened
  | size (w h : Nat)
  | bad
  | raises
deriving DecidableEq

/-- The libraries: `md5(payload).hexdigest()` and `PIL.Image.open`. -/
structure ImageLib where
  digest : List Nat → Str
  opened : List Nat → Opened

/-- What the plugin keeps for a message. -/
structure Images where
  names : List (Option Str)
  counts : Dict Str Nat
  invalid : Dict Str Nat
  coverage : Dict Str Nat
  sizes : Dict Str (Dict Str (Nat × Nat))
deriving DecidableEq

/-- Nothing stored yet. -/
def Images.none : Images := ⟨[], [], [], [], []⟩

/-- `_update_counts`, `_update_invalid_counts` and `_update_coverage` (oa/plugins/image_info.py 69-79, 88-98, 109-117) on the
dictionary they change. -/
def bumpBoth (d : Dict Str Nat) (subtype : Str) (by_ : Nat) : Dict Str Nat := bump (bump d c!"all" by_) subtype by_

/-- `sizes[k]` for a `defaultdict(dict)`. -/
def sizesOf (s : Images) (k : Str) : Dict Str (Nat × Nat) := (Dict.get? s.sizes k).getD []

/-- `_save_stats` (oa/plugins/image_info.py 127-152). -/
def saveStats (lib : ImageLib) (s : Images) (payload : List Nat) (subtype : Str) : Option Images :=
  match Dict.get? (sizesOf s c!"all") (lib.digest payload) with
  | some (w, h) => some { s with coverage := bumpBoth s.coverage subtype (w * h) }
  | .none =>
    match lib.opened payload with
    | .raises => .none
    | .bad => some { s with invalid := bumpBoth s.invalid subtype 1 }
    | .size w h =>
      let sizes := Dict.set s.sizes c!"all" (Dict.set (sizesOf s c!"all") (lib.digest payload) (w, h))
      let sizes := Dict.set sizes subtype (Dict.set ((Dict.get? sizes subtype).getD []) (lib.digest payload) (w, h))
      some { s with sizes := sizes, coverage := bumpBoth s.coverage subtype (w * h) }

/-- `extract_metadata` (oa/plugins/image_info.py 162-172). -/
def extractImage (lib : ImageLib) (s : Images) (p : Part) : Option Images :=
  if p.maintype = c!"image" then
    saveStats lib { s with names := p.name :: s.names, counts := bumpBoth s.counts p.subtype 1 } p.payload p.subtype
  else some s

/-- The plugin is called for each part, in order (oa/message.py 450-470). -/
def extractImages (lib : ImageLib) : Images → List Part → Option Images
  | s, [] => some s
  | s, p :: ps =>
    match extractImage lib s p with
    | .none => .none
    | some s' => extractImages lib s' ps

/-- `image_named` (oa/plugins/image_info.py 174-176). -/
def imageNamed (s : Images) (name : Str) : Bool := s.names.contains (some name)

/-- The end of `image_count` and `pixel_coverage` (oa/plugins/image_info.py 202-208, 214-218). -/
def inRange (n : Nat) (lo : Arg) (hi : Option Arg) : Option Bool :=
  match lo.int with
  | .none => .none
  | some lo =>
    match hi with
    | some hi =>
      if hi.truthy then
        match hi.int with
        | .none => .none
        | some hi => some (decide (lo ≤ (n : Int)) && decide ((n : Int) ≤ hi))
      else some (decide (lo ≤ (n : Int)))
    | .none => some (decide (lo ≤ (n : Int)))

/-- `image_count` (oa/plugins/image_info.py 198-208). -/
def imageCount (s : Images) (type : Str) (lo : Arg) (hi : Option Arg) : Option Bool :=
  inRange ((Dict.get? s.counts type).getD 0) lo hi

/-- `pixel_coverage` (oa/plugins/image_info.py 210-218). -/
def pixelCoverage (s : Images) (type : Str) (lo : Arg) (hi : Option Arg) : Option Bool :=
  inRange ((Dict.get? s.coverage type).getD 0) lo hi

/-- `image_size_exact` (oa/plugins/image_info.py 187-196); the code compares width and height. -/
def imageSizeExact (s : Images) (type : Str) (height width : Arg) : Option Bool :=
  match height.int, width.int with
  | some h, some w => some ((Dict.values (sizesOf s type)).any (fun i => decide ((i.1 : Int) = w) && decide ((i.2 : Int) = h)))
  | _, _ => .none

/-- `x and img[k] > int(x)`: whether a maximum is exceeded. -/
def over (n : Nat) (hi : Option Arg) : Option Bool :=
  match hi with
  | .none => some false
  | some a =>
    if a.truthy then
      match a.int with
      | .none => .none
      | some m => some (decide (m < (n : Int)))
    else some false

/-- `image_size_range` (oa/plugins/image_info.py 220-240), the loop over the sizes. -/
def rangeLoop (minHeight minWidth : Arg) (maxHeight maxWidth : Option Arg) : List (Nat × Nat) → Option Bool
  | [] => some false
  | i :: rest =>
    match minWidth.int with
    | .none => .none
    | some w =>
      if (i.1 : Int) < w then rangeLoop minHeight minWidth maxHeight maxWidth rest
      else
        match minHeight.int with
        | .none => .none
        | some h =>
          if (i.2 : Int) < h then rangeLoop minHeight minWidth maxHeight maxWidth rest
          else
            match over i.1 maxWidth with
            | .none => .none
            | some true => rangeLoop minHeight minWidth maxHeight maxWidth rest
            | some false =>
              match over i.2 maxHeight with
              | .none => .none
              | some true => rangeLoop minHeight minWidth maxHeight maxWidth rest
              | some false => some true

/-- `image_size_range` (oa/plugins/image_info.py 220-240). -/
def imageSizeRange (s : Images) (type : Str) (minHeight minWidth : Arg) (maxHeight maxWidth : Option Arg) : Option Bool :=
  rangeLoop minHeight minWidth maxHeight maxWidth (Dict.values (sizesOf s type))

/-- `image_to_text_ratio` (oa/plugins/image_info.py 242-260): `textLen` is the length of the text of the body, or of the raw text. -/
def imageRatio (parse : Str → Option Rat) (s : Images) (type : Str) (textLen : Nat) (lo : Arg) (hi : Option Arg) : Option Bool :=
  let coverage := (Dict.get? s.coverage type).getD 0
  let ratio : Rat := if coverage = 0 then (textLen : Rat) else (textLen : Rat) / (coverage : Rat)
  match lo.float parse with
  | .none => .none
  | some lo =>
    match hi with
    | some hi =>
      if hi.truthy then
        match hi.float parse with
        | .none => .none
        | some hi => some (decide (lo ≤ ratio) && decide (ratio ≤ hi))
      else some (decide (lo ≤ ratio))
    | .none => some (decide (lo ≤ ratio))

/-- The eval rules that the plugin registers (oa/plugins/image_info.py 29-34). -/
def imageRules : List Str :=
  [c!"image_count", c!"image_named", c!"pixel_coverage", c!"image_size_exact", c!"image_size_range", c!"image_to_text_ratio"]

/-! ### PDF documents -/

/-- An object of a page: its `/Subtype` and, for images, its size. -/
structure XObject where
  subtype : Str
  width : Nat
  height : Nat
deriving DecidableEq

/-- A page: its text, and its objects if it has resources with objects. -/
structure Page where
  text : Str
  objects : Option (List XObject)
deriving DecidableEq

/-- The information about a document. -/
structure Info where
  author : Option Str
  creator : Option Str
  producer : Option Str
  title : Option Str
deriving DecidableEq

/-- What `PyPDF2` makes of a payload: an exception, at any point of reading it; an encrypted document; or a document. -/
inductive Reader
  | broken
  | encrypted
  | document (info : Option Info) (pages : List Page)
deriving DecidableEq

/-- The libraries: `md5(payload).hexdigest()`, `md5(text.encode("utf8")).hexdigest()` and `PyPDF2`. -/
structure PdfLib where
  digest : List Nat → Str
  textDigest : Str → Str
  read : List Nat → Reader

/-- What the plugin keeps for a message. -/
structure Pdfs where
  names : List (Option Str)
  count : Nat
  images : Nat
  coverage : Nat
  hashes : List Str
  fuzzy : List Str
  details : Dict Str (Dict Str Str)
  encrypted : List Bool
  bytes : Option Nat
deriving DecidableEq

/-- Nothing stored yet. -/
def Pdfs.none : Pdfs := ⟨[], 0, 0, 0, [], [], [], [], .none⟩

/-- `_update_details` (oa/plugins/pdf_info.py 219-232). -/
def addDetail (d : Dict Str (Dict Str Str)) (id detail : Str) (value : Option Str) : Dict Str (Dict Str Str) :=
  Dict.set d id (Dict.set ((Dict.get? d id).getD []) detail (value.getD []))

/-- The four details (oa/plugins/pdf_info.py 310-315). -/
def addInfo (d : Dict Str (Dict Str Str)) (id : Str) (i : Info) : Dict Str (Dict Str Str) :=
  addDetail (addDetail (addDetail (addDetail d id c!"author" i.author) id c!"creator" i.creator)
    id c!"producer" i.producer) id c!"title" i.title

/-- An object of a page (oa/plugins/pdf_info.py 328-336). -/
def addObject (s : Pdfs) (o : XObject) : Pdfs :=
  if o.subtype ≠ c!"/Image" then s
  else { s with images := s.images + 1, coverage := s.coverage + o.width * o.height }

/-- A page (oa/plugins/pdf_info.py 316-336). -/
def addPage (lib : PdfLib) (s : Pdfs) (p : Page) : Pdfs :=
  let s := if p.text ≠ [] then { s with fuzzy := lower (lib.textDigest p.text) :: s.fuzzy } else s
  match p.objects with
  | .none => s
  | some os => os.foldl addObject s

/-- `_save_stats` (oa/plugins/pdf_info.py 297-336). -/
def savePdf (lib : PdfLib) (s : Pdfs) (payload : List Nat) : Option Pdfs :=
  let id := lib.digest payload
  let s := { s with hashes := id :: s.hashes, bytes := some (s.bytes.getD 0 + payload.length) }
  match lib.read payload with
  | .broken => .none
  | .encrypted => some { s with encrypted := true :: s.encrypted }
  | .document info pages =>
    let s := { s with encrypted := false :: s.encrypted }
    let s := match info with
      | .none => s
      | some i => { s with details := addInfo s.details id i }
    some (pages.foldl (addPage lib) s)

/-- `extract_metadata` (oa/plugins/pdf_info.py 338-344). -/
def extractPdf (lib : PdfLib) (s : Pdfs) (p : Part) : Option Pdfs :=
  if p.maintype = c!"application" ∧ p.subtype = c!"pdf" then
    savePdf lib { s with names := p.name :: s.names, count := s.count + 1 } p.payload
  else some s

/-- The plugin is called for each part, in order (oa/message.py 450-470). -/
def extractPdfs (lib : PdfLib) : Pdfs → List Part → Option Pdfs
  | s, [] => some s
  | s, p :: ps =>
    match extractPdf lib s p with
    | .none => .none
    | some s' => extractPdfs lib s' ps

/-- `minimum <= n <= (maximum or float("inf"))`: texts cannot be compared with numbers (`TypeError`). -/
def between (n : Nat) (lo : Arg) (hi : Option Arg) : Option Bool :=
  match lo with
  | .text _ => .none
  | .num lo =>
    if lo ≤ (n : Int) then
      match hi with
      | .none => some true
      | some hi =>
        if hi.truthy then
          match hi with
          | .text _ => .none
          | .num hi => some (decide ((n : Int) ≤ hi))
        else some true
    else some false

/-- `pdf_count` (oa/plugins/pdf_info.py 54-65). -/
def pdfCount (s : Pdfs) (lo : Arg) (hi : Option Arg) : Option Bool := between s.count lo hi

/-- `pdf_image_count` (oa/plugins/pdf_info.py 83-95). -/
def pdfImageCount (s : Pdfs) (lo : Arg) (hi : Option Arg) : Option Bool := between s.images lo hi

/-- `pdf_pixel_coverage` (oa/plugins/pdf_info.py 115-126). -/
def pdfCoverage (s : Pdfs) (lo : Arg) (hi : Option Arg) : Option Bool := between s.coverage lo hi

/-- `pdf_named` (oa/plugins/pdf_info.py 143-152). -/
def pdfNamed (s : Pdfs) (name : Str) : Bool := s.names.contains (some name)

/-- `pdf_name_regex` (oa/plugins/pdf_info.py 154-168), the loop over the set of names in the order Python gives it; `None` cannot be
matched (`TypeError`). -/
def nameLoop (re : Str → Bool) : List (Option Str) → Option Bool
  | [] => some false
  | .none :: _ => .none
  | some n :: rest => if re n then some true else nameLoop re rest

/-- `pdf_match_md5` (oa/plugins/pdf_info.py 184-191). -/
def pdfMd5 (s : Pdfs) (hash : Str) : Bool := s.hashes.contains hash

/-- `pdf_match_details` (oa/plugins/pdf_info.py 234-255). -/
def pdfDetails (re : Str → Bool) (s : Pdfs) (_detail : Str) : Bool :=
  (Dict.values s.details).any (fun all => (Dict.values all).any re)

/-- `pdf_is_encrypted` (oa/plugins/pdf_info.py 265-273). -/
def pdfEncrypted (s : Pdfs) : Bool := s.encrypted.contains true

/-- `pdf_is_empty_body` (oa/plugins/pdf_info.py 284-295). -/
def pdfEmpty (s : Pdfs) (limit : Arg) : Option Bool :=
  match s.bytes with
  | .none => some false
  | some n =>
    match limit with
    | .text _ => .none
    | .num l => some (decide ((n : Int) ≤ l))

/-- The eval rules that the plugin registers (oa/plugins/pdf_info.py 25-35). -/
def pdfRules : List Str :=
  [c!"pdf_count", c!"pdf_image_count", c!"pdf_pixel_coverage", c!"pdf_named", c!"pdf_name_regex", c!"pdf_match_md5",
    c!"pdf_match_details", c!"pdf_is_encrypted", c!"pdf_is_empty_body"]

end Verif.Attachments
