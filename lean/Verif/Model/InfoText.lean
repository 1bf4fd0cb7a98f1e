import Verif.Model.StatusView

/-!
# The readable output of `rauc info`: `info_formatter_readable` and the end of `info_start`, src/main.c, `format_cert_chain`, src/signature.c

Left out: the options `--dump-cert` and `--dump-recipients`. How `g_format_size_full` writes a size is a parameter (it depends on the locale).
-/

namespace Rauc.InfoText

open Rauc.StatusView (formatStr hookWords)

/-- `%s` of glibc: NULL is printed as "(null)" -/
def pstr (s : Option Str) : Str := s.getD c!"(null)"

/-- a line of the output -/
def ln (s : Str) : Str := s ++ ['\n']

/-- `KBLD` and `KNRM`, `KGRN`, `KYEL`, main.c:919-927 -/
def bold : Str := c!"\x1B[1m"
def norm : Str := c!"\x1B[0m"
def green : Str := c!"\x1B[32m"
def yellow : Str := c!"\x1B[33m"

/-- main.c:1045-1077: the first part, without the empty line after it -/
def headLines (m : Manifest) : List Str :=
  [c!"Compatible:     '" ++ m.compatible ++ c!"'",
   c!"Version:        '" ++ pstr m.version ++ c!"'",
   c!"Description:    '" ++ pstr m.description ++ c!"'",
   c!"Build:          '" ++ pstr m.build ++ c!"'",
   c!"Hooks:          '" ++ (if m.installCheck then c!"install-check" else []) ++ c!"'",
   c!"Bundle Format:  " ++ formatStr m.format ++
     (if m.format = .crypt then (if m.wasEncrypted then bold ++ green ++ c!" [encrypted CMS]" ++ norm else bold ++ yellow ++ c!" [unencrypted CMS]" ++ norm) else [])] ++
  (if m.format = .crypt then [c!"  Crypt Key:    '<hidden>'"] else []) ++
  (if m.format = .verity ∨ m.format = .crypt then
    [c!"  Verity Salt:  '" ++ pstr m.veritySalt ++ c!"'",
     c!"  Verity Hash:  '" ++ pstr m.verityHash ++ c!"'",
     c!"  Verity Size:  " ++ toDec m.veritySize] else []) ++
  [c!"Manifest Hash:  '" ++ pstr m.hash ++ c!"'"]

/-- main.c:1081-1100: the meta data -/
def metaLines (l : List (Str × List (Str × Str))) : List Str :=
  if l.isEmpty then []
  else c!"Metadata:" :: l.flatMap (fun g => (c!"  " ++ g.1 ++ c!":") :: g.2.map (fun e => c!"    " ++ e.1 ++ c!": " ++ e.2))

/-- main.c:1107-1160: an image -/
def imageLines (fmt : Int → Str) (i : Image) : List Str :=
  [c!"  " ++ bold ++ c!"[" ++ i.slotclass ++ c!"]" ++ norm] ++
  (i.variant.map (c!"    Variant:   " ++ ·)).toList ++
  (i.artifact.map (c!"    Artifact:  " ++ ·)).toList ++
  (i.filename.map (c!"    Filename:  " ++ ·)).toList ++ (if i.filename.isNone then [c!"    (no image file)"] else []) ++
  (if i.artifact.isNone then [c!"    Type:      " ++ pstr i.typ ++ (if i.typeFromExt then c!" (detected)" else [])] else []) ++
  (if i.filename.isSome then [c!"    Checksum:  " ++ pstr i.digest, c!"    Size:      " ++ fmt i.size] else []) ++
  [c!"    Hooks:     " ++ join ' ' (hookWords i.hooks)] ++
  (i.adaptive.map (fun l => c!"    Adaptive:  " ++ join ' ' l)).toList ++
  (i.convert.map (fun l => c!"    Convert:   " ++ join ' ' l)).toList ++
  (i.converted.map (fun l => c!"    Converted:" ++ l.flatMap (fun f => c!" '" ++ f ++ c!"'"))).toList

/-- main.c:1102-1103: the line before the images -/
def countLine (n : Nat) : Str := toDec n ++ c!" Image" ++ (if n = 1 then [] else c!"s") ++ (if n > 0 then c!":" else [])

/-- all lines of `info_formatter_readable`, main.c:1037-1166 -/
def infoLines (fmt : Int → Str) (m : Manifest) : List Str :=
  headLines m ++ [[]] ++ metaLines m.metas ++ [[]] ++ [countLine m.images.length] ++ m.images.flatMap (imageLines fmt)

/-- `info_formatter_readable`, main.c:1037-1166 -/
def infoReadable (fmt : Int → Str) (m : Manifest) : Str := (infoLines fmt m).flatMap ln

/-- what `format_cert_chain` shows of a certificate; names as printed by OpenSSL, which escapes control characters (`XN_FLAG_ONELINE`) -/
structure Cert where
  subject : Str
  issuer : Str
  spki : Str
  notBefore : Str
  notAfter : Str
deriving DecidableEq, Repr

/-- `%2d` -/
def dec2 (n : Nat) : Str := if n < 10 then ' ' :: toDec n else toDec n

/-- signature.c:1043-1061: certificate number `i` -/
def certLines (i : Nat) (c : Cert) : List Str :=
  [dec2 i ++ c!" Subject: " ++ c.subject, c!"   Issuer: " ++ c.issuer, c!"   SPKI sha256: " ++ c.spki, c!"   Not Before: " ++ c.notBefore, c!"   Not After:  " ++ c.notAfter]

def certsFrom : Nat → List Cert → List Str
  | _, [] => []
  | i, c :: l => certLines i c ++ certsFrom (i + 1) l

/-- `format_cert_chain`, signature.c:1036-1065 -/
def chainLines (l : List Cert) : List Str := c!"Certificate Chain:" :: certsFrom 0 l

/-- what `rauc info` prints, `info_start`, main.c:1389-1418; `chain` is the verified chain, if there is one -/
def infoOutput (fmt : Int → Str) (m : Manifest) (chain : Option (List Cert)) : Str :=
  infoReadable fmt m ++ ['\n'] ++
  (match chain with
   | none => ln c!"Signature unverified"
   | some l => (chainLines l).flatMap ln ++ ['\n'])

end Rauc.InfoText
