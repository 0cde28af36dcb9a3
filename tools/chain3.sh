while pgrep -f chain2.sh >/dev/null || pgrep -f "seed.py mut1[345]" >/dev/null; do sleep 20; done
cd /tmp/work; python3 seed.py mut16.json > seed16.out 2>&1
