import os,sys
sys.path.insert(0,os.path.dirname(os.path.abspath(__file__)))

from schema_gen import classes,C,cn
out=['/-- The classes used by src/xrns/xrns_serializer.py:38-230. -/\ninductive DaoClass where']
for c in C: out.append('  | '+cn(c))
out.append('  deriving DecidableEq, Repr\n')
out.append('''/-- One field of a data class (`dataclasses.field(..)` with its metadata,
src/xrns/xml/song/renoise_song65.py): the name of the attribute in Python, the name in the document
(`metadata["name"]`, or the former if there is none), whether the items take turns with those of
neighbouring fields (`metadata["sequential"]`). -/
structure ElemField where
  py : String
  name : String
  sequential : Bool := false
  deriving DecidableEq, Repr

/-- A field with `metadata["type"] = "Attribute"`, with its default if it is not `None`
(src/xrns/xml/song/renoise_song65.py; such fields have `init=False`). -/
structure AttrField where
  name : String
  default : Option String := none
  deriving DecidableEq, Repr

/-- The fields with `metadata["type"] = "Element"`, in the order of the class. Written by
tools/schema_fields.py from the text of src/xrns/xml/song/renoise_song65.py (lines at each class). -/
def DaoClass.elems : DaoClass → List ElemField''')
def wrap(l,ind):
    s='';cur=''
    for i,x in enumerate(l):
        piece=x+(', ' if i<len(l)-1 else '')
        if len(cur)+len(piece)>94-ind:
            s+=cur.rstrip()+'\n'+' '*ind; cur=''
        cur+=piece
    return s+cur
for c in C:
    k=classes[c]
    fs=['⟨"%s", "%s", %s⟩'%(f['attr'],f['md']['name'],'true' if f['md'].get('sequential') else 'false') for f in k['fields'] if f['md']['type']=='Element']
    out.append('  | .%s => -- %d-%d\n    [%s]'%(cn(c),k['line'],k['end'],wrap(fs,5)))
out.append('''
/-- The fields with `metadata["type"] = "Attribute"`, in the order of the class. Written by
tools/schema_fields.py from the text of src/xrns/xml/song/renoise_song65.py (lines at each class). -/
def DaoClass.attrs : DaoClass → List AttrField''')
for c in C:
    k=classes[c]; at=[]
    for f in k['fields']:
        if f['md']['type']!='Element':
            n=f['md'].get('name',f['attr'])
            assert n==f['attr']
            if f['init']=='False': at.append('⟨"%s", some "%s"⟩'%(n,f['default'].strip("'")))
            else:
                assert f['default']=='None'
                at.append('⟨"%s", none⟩'%n)
    out.append('  | .%s => [%s] -- %d-%d'%(cn(c),wrap(at,5),k['line'],k['end']))
sys.stdout.write('\n'.join(out)+'\n')
