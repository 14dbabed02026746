import ast
src=open('/repo/src/xrns/xml/song/renoise_song65.py').read()
tree=ast.parse(src)
classes={}; enums={}
def walk(body,prefix):
    for n in body:
        if isinstance(n,ast.ClassDef):
            name=prefix+n.name
            bases=[ast.unparse(b) for b in n.bases]
            if 'Enum' in bases:
                enums[name]=[ast.literal_eval(s.value) for s in n.body if isinstance(s,ast.Assign)]
            else:
                fs=[]
                for s in n.body:
                    if isinstance(s,ast.AnnAssign):
                        kw={k.arg:k.value for k in s.value.keywords}
                        md=ast.literal_eval(kw['metadata']) if 'metadata' in kw else {}
                        fs.append(dict(attr=s.target.id,ty=ast.unparse(s.annotation),md=md,init=ast.unparse(kw['init']) if 'init' in kw else 'True',default=ast.unparse(kw.get('default',kw.get('default_factory'))),line=s.lineno))
                meta=[ast.unparse(s) for s in n.body if isinstance(s,ast.ClassDef) and s.name=='Meta']
                classes[name]=dict(fields=fs,meta=meta,line=n.lineno,end=n.end_lineno,bases=bases)
            walk([s for s in n.body if isinstance(s,ast.ClassDef) and s.name!='Meta'],name+'.')
walk(tree.body,'')
print(len(classes),len(enums))
if __name__=='__main__':
    for c in ['RenoiseSong','GlobalSongData','GlobalSongData.ShuffleAmounts','RenoiseSong.Instruments','RenoiseInstrument','RenoiseSong.Tracks','SequencerTrack','SequencerMasterTrack','SequencerSendTrack','TrackFilterDeviceChain','TrackMixerDevice','MasterTrackMixerDevice','SendTrackMixerDevice','PatternPool','PatternPool.Patterns','Pattern','Pattern.Tracks','PatternTrack','PatternMasterTrack','PatternSendTrack','PatternTrack.Lines','PatternLineNode','PatternLineNode.NoteColumns','PatternLineNoteColumnNode','PatternSequence','PatternSequence.SequenceEntries','PatternSequenceEntry']:
        k=classes[c]
        print('##',c,k['line'],k['end'],k['bases'],k['meta'])
        for f in k['fields']:
            print('   ',f['attr'],f['md'].get('name'),f['md'].get('type'),f['ty'],'seq=',f['md'].get('sequential'),'init',f['init'],f['default'],f['md'].get('required',''))
