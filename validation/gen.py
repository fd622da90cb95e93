import glob,os,re
from conv import conv,lit
T='/repo/xsd/tests'
out=['''import Verif.Model.Schema
import Verif.Model.Exec
import Verif.Props.Literals
open Xsd
def isSepr (c : Char) : Bool := !c.isAlphanum
-- Inflector-like
def snakeGo (full : Array Char) : Nat → Bool → List Char → List Char → List Char
  | _, _, [], acc => acc.reverse
  | i, first, c :: cs, acc =>
    if isSepr c then (if first then snakeGo full (i+1) true cs acc else snakeGo full (i+1) true cs ('_' :: acc))
    else
      let up := c.toUpper == c
      let nx := (full.getD (i+1) 'A').isLower
      let pv := if i = 0 then false else (full.getD (i-1) 'A').isLower
      if !first && up && (nx || pv) then snakeGo full (i+1) false cs (c.toLower :: '_' :: acc)
      else snakeGo full (i+1) false cs (c.toLower :: acc)
def trimR (s : Str) : Str := (s.reverse.dropWhile isSepr).reverse
def snakeI (s : Str) : Str := snakeGo s.toArray 0 true (trimR s) []
def pascalGo : List Char → Bool → Bool → List Char → List Char
  | [], _, _, acc => acc.reverse
  | c :: cs, newWord, lastLower, acc =>
    if isSepr c then pascalGo cs true false acc
    else if c.isDigit then pascalGo cs true c.isLower (c :: acc)
    else if newWord || (lastLower && c.isUpper) then pascalGo cs false c.isLower (c.toUpper :: acc)
    else pascalGo cs false c.isLower (c.toLower :: acc)
def pascalI (s : Str) : Str := pascalGo (trimR s) true false []
def dec : Nat → Nat → Str → Str
  | 0, _, acc => acc
  | k+1, n, acc => if n ≤ 1 then acc else dec k (n / 1114112) (Char.ofNat (n % 1114112) :: acc)
def ext : Ext := { sampleExt with pascal := pascalI, snake := snakeI, parseFloat := (fun s => some (s.foldl (fun n c => n * 1114112 + c.toNat) 1)), showFloat := (fun n => dec 100 n []), parseDecimal := (fun s => some (s.foldl (fun n c => n * 1114112 + c.toNat) 1)), showDecimal := (fun n => dec 100 n []) }
def str (s : Str) : String := String.ofList s
def showQ (e : ElemInfo) : String := str e.name.loc ++ (match e.name.ns with | some u => "{" ++ str u ++ "}" | none => "")
partial def showN : XNode → List String
  | .text s => if s.all Char.isWhitespace then [] else [str s]
  | .other => []
  | .elem i cs => ["<" ++ showQ i ++ String.join ((i.attrs.map (fun a => " " ++ str a.loc ++ "=" ++ str a.value)).mergeSort (· ≤ ·)) ++ ">"] ++ cs.flatMap showN ++ ["</>"]
''']
files={}
for f in sorted(glob.glob(T+'/xsd/*')):
    b=os.path.basename(f)
    files[b]=conv(f)
nm=lambda b: 'f_'+b.replace('.','_')
for b in files:
    out.append(f'def {nm(b)} : Elem := {files[b]}')
out.append('def fs : Files := { parent := fun _ => [], push := fun _ l => match l with | \'.\' :: \'/\' :: r => r | l => l, read := fun p =>')
for b in files:
    if b.endswith('.xsd'):
        out.append(f'  if p = {lit(b)} then some (.doc ⟨{nm(b)}, fun n => (n, 0)⟩) else')
out.append('  none }')
out.append('''
def run (file : Str) (root : String) (d : Elem) : String :=
  match parseFile ext fs 5 file with
  | .ok s => 
    let S := s.context
    match generateAll ext S with
    | .ok P =>
      let names := String.intercalate " " (P.map (fun t => str t.ident))
      let r := match fromXml ext cursorOps P 200 root.toList ⟨d⟩ with
      | .ok v =>
         match toXml ext P 200 root.toList v with
         | .ok evs => match buildDoc evs with
            | some d' => 
              let a := showN (.elem d.1 d.2); let b := showN (.elem d'.1 d'.2)
              if a == b then "OK" else s!"DIFF {a} {b}"
            | none => "nobuild"
         | _ => "write failed"
      | .err e => s!"read err {repr e}"
      | _ => "read other"
      s!"{r} [{names}] q={repr S.isQualified}"
    | .err m => "gen err " ++ str m
    | .panic => "gen panic"
    | .diverge => "gen diverge"
  | .err e => s!"parse err {repr e}"
  | .panic => "panic"
  | .diverge => "diverge"
''')
for f in sorted(glob.glob(T+'/*.rs')):
    src=open(f).read()
    m=re.search(r'schema = "tests/xsd/([^"]+)"',src)
    if not m: continue
    roots=re.findall(r'(?:schema::)(\w+)::from_xml\((\w+)\)',src)
    xmls=re.findall(r'let (\w+) = include_str!\("./xsd/([^"]+)"\)',src)
    for r,v in roots:
        for vv,x in xmls:
            if vv==v:
                out.append(f'#eval IO.println ("{os.path.basename(f)}: " ++ run {lit(m.group(1))} "{r}" {nm(x)})')
open('/tmp/T.lean','w').write('\n'.join(out)+'\n')
