import re,sys
import os
sys.path.insert(0,os.path.dirname(os.path.abspath(__file__)))
from schema_ext import classes,enums
C=['RenoiseSong','GlobalSongData','GlobalSongData.ShuffleAmounts','RenoiseSong.Instruments','RenoiseInstrument','RenoiseSong.Tracks','SequencerTrack','SequencerMasterTrack','SequencerSendTrack','TrackFilterDeviceChain','TrackFilterDeviceChain.Devices','TrackMixerDevice','MasterTrackMixerDevice','SendTrackMixerDevice','PatternPool','PatternPool.Patterns','Pattern','Pattern.Tracks','PatternTrack','PatternTrack.Lines','PatternMasterTrack','PatternSendTrack','PatternLineNode','PatternLineNode.NoteColumns','PatternLineNoteColumnNode','PatternSequence','PatternSequence.SequenceEntries','PatternSequenceEntry']
def cn(c):
    p=c.split('.'); s=''.join(p); return s[0].lower()+s[1:]
def ty(t):
    t=t.replace("'",'')
    m=re.match(r'(Optional|List)\[(.*)\]$',t)
    many=m.group(1)=='List'; b=m.group(2)
    if b in('int','float','bool'): r='.'+b
    elif b=='str': r='.text'
    elif b in enums: r='.oneOf ['+', '.join('"%s"'%v for v in enums[b])+']'
    elif b in C: r='.cls .'+cn(b)
    else:
        assert b in classes,b
        r='.other'
    return r,many
out=[]
out.append('/-- The classes that a song made by this program uses. -/\ninductive Cls where')
for c in C: out.append('  | '+cn(c))
out.append('  deriving DecidableEq, Repr\n')
out.append('''/-- What an element holds: a number, a truth value, any text, one of some texts, or what a class says;
`other`: a class that these songs do not use. -/
inductive Ty where
  | int | float | bool | text
  | oneOf (l : List String)
  | cls (c : Cls)
  | other
  deriving DecidableEq, Repr

/-- A child element: its name, what it holds, and whether it may be repeated. -/
structure Field where
  name : String
  ty : Ty
  many : Bool := false
  deriving DecidableEq, Repr

/-- An attribute: optional with any text, required with a number, or always there with this text. -/
inductive AttrRule where
  | optional (name : String)
  | number (name : String)
  | fixed (name : String) (value : String)
  deriving DecidableEq, Repr

/-- A class: its child elements, in order, and its attributes. -/
structure ClassDef where
  fields : List Field
  attrs : List AttrRule
  deriving DecidableEq, Repr

/-- The classes, from src/xrns/xml/song/renoise_song65.py (line numbers at each). -/
def classDef : Cls → ClassDef''')
for c in C:
    k=classes[c]; fs=[]; at=[]
    for f in k['fields']:
        if f['md']['type']=='Element':
            t,many=ty(f['ty'])
            fs.append('⟨"%s", %s, %s⟩'%(f['md']['name'],t,'true' if many else 'false'))
        else:
            n=f['md'].get('name',f['attr'])
            if f['init']=='False': at.append('.fixed "%s" "%s"'%(n,f['default'].strip("'")))
            elif f['md'].get('required'): assert 'int' in f['ty']; at.append('.number "%s"'%n)
            else: assert f['ty']=='Optional[str]',f; at.append('.optional "%s"'%n)
    def wrap(l,ind):
        s='';cur=''
        for i,x in enumerate(l):
            piece=x+(', ' if i<len(l)-1 else '')
            if len(cur)+len(piece)>92-ind:
                s+=cur.rstrip()+'\n'+' '*ind; cur=''
            cur+=piece
        return s+cur
    out.append('  | .%s => -- %d-%d\n    { fields := [%s],\n      attrs := [%s] }'%(cn(c),k['line'],k['end'],wrap(fs,8),wrap(at,8)))
if __name__=='__main__': sys.stdout.write('\n'.join(out)+'\n')
