import json,sys
# usage: note.py ID status|- "text"
p='/verif/tools/notes.json'
d=json.load(open(p))
e={}
if sys.argv[2] != '-': e['status']=sys.argv[2]
e['note']=sys.argv[3]
d[sys.argv[1]]=e
json.dump(d,open(p,'w'),indent=0,ensure_ascii=False)
