s=open('/tmp/T.lean').read()
s=s.replace("import Verif.Props.Literals","import Verif.Props.RoundTrip\nimport Verif.Props.Sample")
i=s.index("\ndef run ")
j=s.index("#eval")
s=s[:i]+'''
def run (file : Str) (root : String) (d : Elem) : String :=
  match parseFile ext fs 5 file with
  | .ok s => 
    let S := s.context
    let g := generatesB ext S
    let c := detOK ext S (Cert.compute ext S)
    let f := writeOK ext S (WCert.compute S)
    s!"generates={g} deterministic={c} faithful={f}"
  | _ => "parse"
'''+s[j:]
open('/tmp/T2.lean','w').write(s)
